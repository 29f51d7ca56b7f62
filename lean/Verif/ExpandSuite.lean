import Verif.Derive.Emit
import Verif.Derive.Bounds

/-!
# The recorded expansions of `#[enum_derive]`, against the model

Written by `tools/expandsuite.py`.  `tests/expand/**/*.expanded.rs` are the expansions the crate's tests compare
with.  For each of them, the model has to give the same implementations in the same order, each with the same
methods: name, receiver, parameter names and the right-hand side of every arm; and the `Unpin` implementation and
`MustNotImplDrop` constant exactly if the recorded expansion has them.  For every implementation the generic parameters,
the predicates of the where clause and the associated types are compared as text without white space, and for every method
its generic parameters.  Types and attributes of the methods are not represented in the model and not compared.  These
are tests of the model, not proofs about it.
-/

namespace AutoEnums.Derive.ExpandSuite

set_option maxRecDepth 20000

def sameSet (a b : List Method) : Bool :=
  a.length == b.length && (a.all fun m => b.contains m) && b.all fun m => a.contains m

/-- The header of an implementation as text. -/
structure Header where
  trait : String
  params : List String
  preds : List String
  types : List String
  generics : List (String × List String)
deriving DecidableEq

def projText (p : Proj) : String :=
  "<" ++ String.join p.ty ++ "as" ++ p.trait ++ (if p.args.isEmpty then "" else "<" ++ ",".intercalate p.args ++ ">") ++
    ">::" ++ p.name

def boundText : Bound → String
  | .trait ty tr args eqs =>
    let l := args ++ eqs.map fun e => e.1 ++ "=" ++ projText e.2
    String.join ty ++ ":" ++ tr ++ (if l.isEmpty then "" else "<" ++ ",".intercalate l ++ ">")
  | .fn ty tr => String.join ty ++ ":" ++ tr ++ "(__T)->__U"
  | .static ty => String.join ty ++ ":'static"

def headersOf (d : Data) (i : Impl) : List Header :=
  (implParams d i).map fun ps => ⟨i.trait, ps, (bounds d i).map boundText,
    (assocTypes d i).map fun a => a.1 ++ "=" ++ projText a.2, i.generics⟩

def sameImpls : List (String × List Method) → List (String × List Method) → Bool
  | [], [] => true
  | a :: as, b :: bs => a.1 == b.1 && sameSet a.2 b.2 && sameImpls as bs
  | _, _ => false

/-- All features are enabled. -/
def agrees (args : List Tok) (ident : String) (v1 v2 : String) (impls : List (String × List Method)) (guard : Bool)
    (hs : List Header) : Bool :=
  let d : Data := { ident := ident, params := [⟨false, [v1]⟩, ⟨false, [v2]⟩], variants := [(v1, [v1]), (v2, [v2])] }
  match expand (fun _ => true) d args with
  | .ok o => o.derive.isEmpty && o.guard == guard && sameImpls (o.impls.map fun i => (i.trait, methods d i)) impls
    && (o.impls ++ if o.guard then [unpinImpl] else []).flatMap (headersOf d) == hs
  | .error _ => false

/-- An enum with two type parameters and these field types is rejected. -/
def rejected (args : List Tok) (a b : List String) (e : DErr) : Bool :=
  match expand (fun _ => true) { ident := "Enum", params := [⟨false, ["A"]⟩, ⟨false, ["B"]⟩], variants := [("A", a), ("B", b)] } args with
  | .ok _ => false
  | .error e' => e' == e

/-! ## `tests/ui/enum_derive/args.rs` and `ty_impls.rs` -/

example : rejected [.ident "Clone", .comma, .other "=>"] ["A"] ["B"] .args = true := by decide +kernel
example : rejected [.ident "foo", .colon2, .ident "bar", .colon2, .other "!"] ["A"] ["B"] .args = true := by decide +kernel
example : rejected [.ident "Clone", .comma, .ident "Foo", .other ":"] ["A"] ["B"] .args = true := by decide +kernel
example : rejected [.ident "Clone", .ident "Foo"] ["A"] ["B"] .args = true := by decide +kernel
example : rejected [.ident "Transpose"] ["Foo", "<", "A", ">"] ["B"] (.derive "Transpose") = true := by decide +kernel

/-! ## `tests/expand` -/

/-- `tests/expand/enum_derive/example-1.expanded.rs` -/
example : agrees [.ident "Iterator"] "__Enum1" "__T1" "__T2" [
    ("::core::iter::Iterator", [⟨"::core::iter::Iterator", "next", .mut, [], [⟨"__T1", .call ["__T1"] "::core::iter::Iterator" "next" [.var "x"]⟩, ⟨"__T2", .call ["__T2"] "::core::iter::Iterator" "next" [.var "x"]⟩]⟩,
      ⟨"::core::iter::Iterator", "size_hint", .ref, [], [⟨"__T1", .call ["__T1"] "::core::iter::Iterator" "size_hint" [.var "x"]⟩, ⟨"__T2", .call ["__T2"] "::core::iter::Iterator" "size_hint" [.var "x"]⟩]⟩,
      ⟨"::core::iter::Iterator", "count", .val, [], [⟨"__T1", .call ["__T1"] "::core::iter::Iterator" "count" [.var "x"]⟩, ⟨"__T2", .call ["__T2"] "::core::iter::Iterator" "count" [.var "x"]⟩]⟩,
      ⟨"::core::iter::Iterator", "last", .val, [], [⟨"__T1", .call ["__T1"] "::core::iter::Iterator" "last" [.var "x"]⟩, ⟨"__T2", .call ["__T2"] "::core::iter::Iterator" "last" [.var "x"]⟩]⟩,
      ⟨"::core::iter::Iterator", "nth", .mut, ["n"], [⟨"__T1", .call ["__T1"] "::core::iter::Iterator" "nth" [.var "x", .var "n"]⟩, ⟨"__T2", .call ["__T2"] "::core::iter::Iterator" "nth" [.var "x", .var "n"]⟩]⟩,
      ⟨"::core::iter::Iterator", "collect", .val, [], [⟨"__T1", .call ["__T1"] "::core::iter::Iterator" "collect" [.var "x"]⟩, ⟨"__T2", .call ["__T2"] "::core::iter::Iterator" "collect" [.var "x"]⟩]⟩,
      ⟨"::core::iter::Iterator", "partition", .val, ["f"], [⟨"__T1", .call ["__T1"] "::core::iter::Iterator" "partition" [.var "x", .var "f"]⟩, ⟨"__T2", .call ["__T2"] "::core::iter::Iterator" "partition" [.var "x", .var "f"]⟩]⟩,
      ⟨"::core::iter::Iterator", "fold", .val, ["init", "f"], [⟨"__T1", .call ["__T1"] "::core::iter::Iterator" "fold" [.var "x", .var "init", .var "f"]⟩, ⟨"__T2", .call ["__T2"] "::core::iter::Iterator" "fold" [.var "x", .var "init", .var "f"]⟩]⟩,
      ⟨"::core::iter::Iterator", "all", .mut, ["f"], [⟨"__T1", .call ["__T1"] "::core::iter::Iterator" "all" [.var "x", .var "f"]⟩, ⟨"__T2", .call ["__T2"] "::core::iter::Iterator" "all" [.var "x", .var "f"]⟩]⟩,
      ⟨"::core::iter::Iterator", "any", .mut, ["f"], [⟨"__T1", .call ["__T1"] "::core::iter::Iterator" "any" [.var "x", .var "f"]⟩, ⟨"__T2", .call ["__T2"] "::core::iter::Iterator" "any" [.var "x", .var "f"]⟩]⟩,
      ⟨"::core::iter::Iterator", "find", .mut, ["predicate"], [⟨"__T1", .call ["__T1"] "::core::iter::Iterator" "find" [.var "x", .var "predicate"]⟩, ⟨"__T2", .call ["__T2"] "::core::iter::Iterator" "find" [.var "x", .var "predicate"]⟩]⟩,
      ⟨"::core::iter::Iterator", "find_map", .mut, ["f"], [⟨"__T1", .call ["__T1"] "::core::iter::Iterator" "find_map" [.var "x", .var "f"]⟩, ⟨"__T2", .call ["__T2"] "::core::iter::Iterator" "find_map" [.var "x", .var "f"]⟩]⟩,
      ⟨"::core::iter::Iterator", "position", .mut, ["predicate"], [⟨"__T1", .call ["__T1"] "::core::iter::Iterator" "position" [.var "x", .var "predicate"]⟩, ⟨"__T2", .call ["__T2"] "::core::iter::Iterator" "position" [.var "x", .var "predicate"]⟩]⟩])] false [
    ⟨"::core::iter::Iterator", ["__T1", "__T2"], ["__T1:::core::iter::Iterator", "__T2:::core::iter::Iterator<Item=<__T1as::core::iter::Iterator>::Item>"], ["Item=<__T1as::core::iter::Iterator>::Item"], [("collect", ["__U"]), ("partition", ["__U", "__F"]), ("fold", ["__U", "__F"]), ("all", ["__F"]), ("any", ["__F"]), ("find", ["__P"]), ("find_map", ["__U", "__F"]), ("position", ["__P"])]⟩] = true := by decide +kernel

/-- `tests/expand/external/futures/async_buf_read.expanded.rs` -/
example : agrees [.ident "futures03", .colon2, .ident "AsyncBufRead"] "Enum" "A" "B" [
    ("::futures::io::AsyncBufRead", [⟨"::futures::io::AsyncBufRead", "poll_fill_buf", .pin, ["cx"], [⟨"A", .call ["A"] "::futures::io::AsyncBufRead" "poll_fill_buf" [.pinned "x", .var "cx"]⟩, ⟨"B", .call ["B"] "::futures::io::AsyncBufRead" "poll_fill_buf" [.pinned "x", .var "cx"]⟩]⟩,
      ⟨"::futures::io::AsyncBufRead", "consume", .pin, ["amt"], [⟨"A", .call ["A"] "::futures::io::AsyncBufRead" "consume" [.pinned "x", .var "amt"]⟩, ⟨"B", .call ["B"] "::futures::io::AsyncBufRead" "consume" [.pinned "x", .var "amt"]⟩]⟩])] true [
    ⟨"::futures::io::AsyncBufRead", ["A", "B"], ["A:::futures::io::AsyncBufRead", "B:::futures::io::AsyncBufRead"], [], []⟩,
    ⟨"::core::marker::Unpin", ["A", "B"], ["A:::core::marker::Unpin", "B:::core::marker::Unpin"], [], []⟩] = true := by decide +kernel

/-- `tests/expand/external/futures/async_read.expanded.rs` -/
example : agrees [.ident "futures03", .colon2, .ident "AsyncRead"] "Enum" "A" "B" [
    ("::futures::io::AsyncRead", [⟨"::futures::io::AsyncRead", "poll_read", .pin, ["cx", "buf"], [⟨"A", .call ["A"] "::futures::io::AsyncRead" "poll_read" [.pinned "x", .var "cx", .var "buf"]⟩, ⟨"B", .call ["B"] "::futures::io::AsyncRead" "poll_read" [.pinned "x", .var "cx", .var "buf"]⟩]⟩,
      ⟨"::futures::io::AsyncRead", "poll_read_vectored", .pin, ["cx", "bufs"], [⟨"A", .call ["A"] "::futures::io::AsyncRead" "poll_read_vectored" [.pinned "x", .var "cx", .var "bufs"]⟩, ⟨"B", .call ["B"] "::futures::io::AsyncRead" "poll_read_vectored" [.pinned "x", .var "cx", .var "bufs"]⟩]⟩])] true [
    ⟨"::futures::io::AsyncRead", ["A", "B"], ["A:::futures::io::AsyncRead", "B:::futures::io::AsyncRead"], [], []⟩,
    ⟨"::core::marker::Unpin", ["A", "B"], ["A:::core::marker::Unpin", "B:::core::marker::Unpin"], [], []⟩] = true := by decide +kernel

/-- `tests/expand/external/futures/async_seek.expanded.rs` -/
example : agrees [.ident "futures03", .colon2, .ident "AsyncSeek"] "Enum" "A" "B" [
    ("::futures::io::AsyncSeek", [⟨"::futures::io::AsyncSeek", "poll_seek", .pin, ["cx", "pos"], [⟨"A", .call ["A"] "::futures::io::AsyncSeek" "poll_seek" [.pinned "x", .var "cx", .var "pos"]⟩, ⟨"B", .call ["B"] "::futures::io::AsyncSeek" "poll_seek" [.pinned "x", .var "cx", .var "pos"]⟩]⟩])] true [
    ⟨"::futures::io::AsyncSeek", ["A", "B"], ["A:::futures::io::AsyncSeek", "B:::futures::io::AsyncSeek"], [], []⟩,
    ⟨"::core::marker::Unpin", ["A", "B"], ["A:::core::marker::Unpin", "B:::core::marker::Unpin"], [], []⟩] = true := by decide +kernel

/-- `tests/expand/external/futures/async_write.expanded.rs` -/
example : agrees [.ident "futures03", .colon2, .ident "AsyncWrite"] "Enum" "A" "B" [
    ("::futures::io::AsyncWrite", [⟨"::futures::io::AsyncWrite", "poll_write", .pin, ["cx", "buf"], [⟨"A", .call ["A"] "::futures::io::AsyncWrite" "poll_write" [.pinned "x", .var "cx", .var "buf"]⟩, ⟨"B", .call ["B"] "::futures::io::AsyncWrite" "poll_write" [.pinned "x", .var "cx", .var "buf"]⟩]⟩,
      ⟨"::futures::io::AsyncWrite", "poll_write_vectored", .pin, ["cx", "bufs"], [⟨"A", .call ["A"] "::futures::io::AsyncWrite" "poll_write_vectored" [.pinned "x", .var "cx", .var "bufs"]⟩, ⟨"B", .call ["B"] "::futures::io::AsyncWrite" "poll_write_vectored" [.pinned "x", .var "cx", .var "bufs"]⟩]⟩,
      ⟨"::futures::io::AsyncWrite", "poll_flush", .pin, ["cx"], [⟨"A", .call ["A"] "::futures::io::AsyncWrite" "poll_flush" [.pinned "x", .var "cx"]⟩, ⟨"B", .call ["B"] "::futures::io::AsyncWrite" "poll_flush" [.pinned "x", .var "cx"]⟩]⟩,
      ⟨"::futures::io::AsyncWrite", "poll_close", .pin, ["cx"], [⟨"A", .call ["A"] "::futures::io::AsyncWrite" "poll_close" [.pinned "x", .var "cx"]⟩, ⟨"B", .call ["B"] "::futures::io::AsyncWrite" "poll_close" [.pinned "x", .var "cx"]⟩]⟩])] true [
    ⟨"::futures::io::AsyncWrite", ["A", "B"], ["A:::futures::io::AsyncWrite", "B:::futures::io::AsyncWrite"], [], []⟩,
    ⟨"::core::marker::Unpin", ["A", "B"], ["A:::core::marker::Unpin", "B:::core::marker::Unpin"], [], []⟩] = true := by decide +kernel

/-- `tests/expand/external/futures/sink.expanded.rs` -/
example : agrees [.ident "futures03", .colon2, .ident "Sink"] "Enum" "A" "B" [
    ("::futures::sink::Sink", [⟨"::futures::sink::Sink", "poll_ready", .pin, ["cx"], [⟨"A", .call ["A"] "::futures::sink::Sink" "poll_ready" [.pinned "x", .var "cx"]⟩, ⟨"B", .call ["B"] "::futures::sink::Sink" "poll_ready" [.pinned "x", .var "cx"]⟩]⟩,
      ⟨"::futures::sink::Sink", "start_send", .pin, ["item"], [⟨"A", .call ["A"] "::futures::sink::Sink" "start_send" [.pinned "x", .var "item"]⟩, ⟨"B", .call ["B"] "::futures::sink::Sink" "start_send" [.pinned "x", .var "item"]⟩]⟩,
      ⟨"::futures::sink::Sink", "poll_flush", .pin, ["cx"], [⟨"A", .call ["A"] "::futures::sink::Sink" "poll_flush" [.pinned "x", .var "cx"]⟩, ⟨"B", .call ["B"] "::futures::sink::Sink" "poll_flush" [.pinned "x", .var "cx"]⟩]⟩,
      ⟨"::futures::sink::Sink", "poll_close", .pin, ["cx"], [⟨"A", .call ["A"] "::futures::sink::Sink" "poll_close" [.pinned "x", .var "cx"]⟩, ⟨"B", .call ["B"] "::futures::sink::Sink" "poll_close" [.pinned "x", .var "cx"]⟩]⟩])] true [
    ⟨"::futures::sink::Sink", ["A", "B", "__Item"], ["A:::futures::sink::Sink<__Item>", "B:::futures::sink::Sink<__Item,Error=<Aas::futures::sink::Sink<__Item>>::Error>"], ["Error=<Aas::futures::sink::Sink<__Item>>::Error"], []⟩,
    ⟨"::core::marker::Unpin", ["A", "B"], ["A:::core::marker::Unpin", "B:::core::marker::Unpin"], [], []⟩] = true := by decide +kernel

/-- `tests/expand/external/futures/stream.expanded.rs` -/
example : agrees [.ident "futures03", .colon2, .ident "Stream"] "Enum" "A" "B" [
    ("::futures::stream::Stream", [⟨"::futures::stream::Stream", "size_hint", .ref, [], [⟨"A", .call ["A"] "::futures::stream::Stream" "size_hint" [.var "x"]⟩, ⟨"B", .call ["B"] "::futures::stream::Stream" "size_hint" [.var "x"]⟩]⟩,
      ⟨"::futures::stream::Stream", "poll_next", .pin, ["cx"], [⟨"A", .call ["A"] "::futures::stream::Stream" "poll_next" [.pinned "x", .var "cx"]⟩, ⟨"B", .call ["B"] "::futures::stream::Stream" "poll_next" [.pinned "x", .var "cx"]⟩]⟩])] true [
    ⟨"::futures::stream::Stream", ["A", "B"], ["A:::futures::stream::Stream", "B:::futures::stream::Stream<Item=<Aas::futures::stream::Stream>::Item>"], ["Item=<Aas::futures::stream::Stream>::Item"], []⟩,
    ⟨"::core::marker::Unpin", ["A", "B"], ["A:::core::marker::Unpin", "B:::core::marker::Unpin"], [], []⟩] = true := by decide +kernel

/-- `tests/expand/external/http_body/body.expanded.rs` -/
example : agrees [.ident "http_body1", .colon2, .ident "Body"] "Enum" "A" "B" [
    ("::http_body::Body", [⟨"::http_body::Body", "is_end_stream", .ref, [], [⟨"A", .call ["A"] "::http_body::Body" "is_end_stream" [.var "x"]⟩, ⟨"B", .call ["B"] "::http_body::Body" "is_end_stream" [.var "x"]⟩]⟩,
      ⟨"::http_body::Body", "size_hint", .ref, [], [⟨"A", .call ["A"] "::http_body::Body" "size_hint" [.var "x"]⟩, ⟨"B", .call ["B"] "::http_body::Body" "size_hint" [.var "x"]⟩]⟩,
      ⟨"::http_body::Body", "poll_frame", .pin, ["cx"], [⟨"A", .call ["A"] "::http_body::Body" "poll_frame" [.pinned "x", .var "cx"]⟩, ⟨"B", .call ["B"] "::http_body::Body" "poll_frame" [.pinned "x", .var "cx"]⟩]⟩])] true [
    ⟨"::http_body::Body", ["A", "B"], ["A:::http_body::Body", "B:::http_body::Body<Data=<Aas::http_body::Body>::Data,Error=<Aas::http_body::Body>::Error>"], ["Data=<Aas::http_body::Body>::Data", "Error=<Aas::http_body::Body>::Error"], []⟩,
    ⟨"::core::marker::Unpin", ["A", "B"], ["A:::core::marker::Unpin", "B:::core::marker::Unpin"], [], []⟩] = true := by decide +kernel

/-- `tests/expand/external/rayon/indexed_parallel_iterator.expanded.rs` -/
example : agrees [.ident "rayon", .colon2, .ident "IndexedParallelIterator"] "Enum" "A" "B" [
    ("::rayon::iter::ParallelIterator", [⟨"::rayon::iter::ParallelIterator", "drive_unindexed", .val, ["consumer"], [⟨"A", .call ["A"] "::rayon::iter::ParallelIterator" "drive_unindexed" [.var "x", .var "consumer"]⟩, ⟨"B", .call ["B"] "::rayon::iter::ParallelIterator" "drive_unindexed" [.var "x", .var "consumer"]⟩]⟩,
      ⟨"::rayon::iter::ParallelIterator", "opt_len", .ref, [], [⟨"A", .call ["A"] "::rayon::iter::ParallelIterator" "opt_len" [.var "x"]⟩, ⟨"B", .call ["B"] "::rayon::iter::ParallelIterator" "opt_len" [.var "x"]⟩]⟩]),
    ("::rayon::iter::IndexedParallelIterator", [⟨"::rayon::iter::IndexedParallelIterator", "drive", .val, ["consumer"], [⟨"A", .call ["A"] "::rayon::iter::IndexedParallelIterator" "drive" [.var "x", .var "consumer"]⟩, ⟨"B", .call ["B"] "::rayon::iter::IndexedParallelIterator" "drive" [.var "x", .var "consumer"]⟩]⟩,
      ⟨"::rayon::iter::IndexedParallelIterator", "len", .ref, [], [⟨"A", .call ["A"] "::rayon::iter::IndexedParallelIterator" "len" [.var "x"]⟩, ⟨"B", .call ["B"] "::rayon::iter::IndexedParallelIterator" "len" [.var "x"]⟩]⟩,
      ⟨"::rayon::iter::IndexedParallelIterator", "with_producer", .val, ["callback"], [⟨"A", .call ["A"] "::rayon::iter::IndexedParallelIterator" "with_producer" [.var "x", .var "callback"]⟩, ⟨"B", .call ["B"] "::rayon::iter::IndexedParallelIterator" "with_producer" [.var "x", .var "callback"]⟩]⟩])] false [
    ⟨"::rayon::iter::ParallelIterator", ["A", "B"], ["A:::rayon::iter::ParallelIterator", "B:::rayon::iter::ParallelIterator<Item=<Aas::rayon::iter::ParallelIterator>::Item>"], ["Item=<Aas::rayon::iter::ParallelIterator>::Item"], [("drive_unindexed", ["__C"])]⟩,
    ⟨"::rayon::iter::IndexedParallelIterator", ["A", "B"], ["A:::rayon::iter::IndexedParallelIterator", "B:::rayon::iter::IndexedParallelIterator<Item=<Aas::rayon::iter::ParallelIterator>::Item>"], [], [("drive", ["__C"]), ("with_producer", ["__CB"])]⟩] = true := by decide +kernel

/-- `tests/expand/external/rayon/parallel_extend.expanded.rs` -/
example : agrees [.ident "rayon", .colon2, .ident "ParallelExtend"] "Enum" "A" "B" [
    ("::rayon::iter::ParallelExtend", [⟨"::rayon::iter::ParallelExtend", "par_extend", .mut, ["par_iter"], [⟨"A", .call ["A"] "::rayon::iter::ParallelExtend" "par_extend" [.var "x", .var "par_iter"]⟩, ⟨"B", .call ["B"] "::rayon::iter::ParallelExtend" "par_extend" [.var "x", .var "par_iter"]⟩]⟩])] false [
    ⟨"::rayon::iter::ParallelExtend", ["A", "B", "__T"], ["A:::rayon::iter::ParallelExtend<__T>", "B:::rayon::iter::ParallelExtend<__T>"], [], [("par_extend", ["__I"])]⟩] = true := by decide +kernel

/-- `tests/expand/external/rayon/parallel_iterator.expanded.rs` -/
example : agrees [.ident "rayon", .colon2, .ident "ParallelIterator"] "Enum" "A" "B" [
    ("::rayon::iter::ParallelIterator", [⟨"::rayon::iter::ParallelIterator", "drive_unindexed", .val, ["consumer"], [⟨"A", .call ["A"] "::rayon::iter::ParallelIterator" "drive_unindexed" [.var "x", .var "consumer"]⟩, ⟨"B", .call ["B"] "::rayon::iter::ParallelIterator" "drive_unindexed" [.var "x", .var "consumer"]⟩]⟩,
      ⟨"::rayon::iter::ParallelIterator", "opt_len", .ref, [], [⟨"A", .call ["A"] "::rayon::iter::ParallelIterator" "opt_len" [.var "x"]⟩, ⟨"B", .call ["B"] "::rayon::iter::ParallelIterator" "opt_len" [.var "x"]⟩]⟩])] false [
    ⟨"::rayon::iter::ParallelIterator", ["A", "B"], ["A:::rayon::iter::ParallelIterator", "B:::rayon::iter::ParallelIterator<Item=<Aas::rayon::iter::ParallelIterator>::Item>"], ["Item=<Aas::rayon::iter::ParallelIterator>::Item"], [("drive_unindexed", ["__C"])]⟩] = true := by decide +kernel

/-- `tests/expand/external/serde/serialize.expanded.rs` -/
example : agrees [.ident "serde", .colon2, .ident "Serialize"] "Enum" "A" "B" [
    ("::serde::ser::Serialize", [⟨"::serde::ser::Serialize", "serialize", .ref, ["serializer"], [⟨"A", .call ["A"] "::serde::ser::Serialize" "serialize" [.var "x", .var "serializer"]⟩, ⟨"B", .call ["B"] "::serde::ser::Serialize" "serialize" [.var "x", .var "serializer"]⟩]⟩])] false [
    ⟨"::serde::ser::Serialize", ["A", "B"], ["A:::serde::ser::Serialize", "B:::serde::ser::Serialize"], [], [("serialize", ["__S"])]⟩] = true := by decide +kernel

/-- `tests/expand/external/tokio/async_buf_read.expanded.rs` -/
example : agrees [.ident "tokio1", .colon2, .ident "AsyncBufRead"] "Enum" "A" "B" [
    ("::tokio::io::AsyncBufRead", [⟨"::tokio::io::AsyncBufRead", "poll_fill_buf", .pin, ["cx"], [⟨"A", .call ["A"] "::tokio::io::AsyncBufRead" "poll_fill_buf" [.pinned "x", .var "cx"]⟩, ⟨"B", .call ["B"] "::tokio::io::AsyncBufRead" "poll_fill_buf" [.pinned "x", .var "cx"]⟩]⟩,
      ⟨"::tokio::io::AsyncBufRead", "consume", .pin, ["amt"], [⟨"A", .call ["A"] "::tokio::io::AsyncBufRead" "consume" [.pinned "x", .var "amt"]⟩, ⟨"B", .call ["B"] "::tokio::io::AsyncBufRead" "consume" [.pinned "x", .var "amt"]⟩]⟩])] true [
    ⟨"::tokio::io::AsyncBufRead", ["A", "B"], ["A:::tokio::io::AsyncBufRead", "B:::tokio::io::AsyncBufRead"], [], []⟩,
    ⟨"::core::marker::Unpin", ["A", "B"], ["A:::core::marker::Unpin", "B:::core::marker::Unpin"], [], []⟩] = true := by decide +kernel

/-- `tests/expand/external/tokio/async_read.expanded.rs` -/
example : agrees [.ident "tokio1", .colon2, .ident "AsyncRead"] "Enum" "A" "B" [
    ("::tokio::io::AsyncRead", [⟨"::tokio::io::AsyncRead", "poll_read", .pin, ["cx", "buf"], [⟨"A", .call ["A"] "::tokio::io::AsyncRead" "poll_read" [.pinned "x", .var "cx", .var "buf"]⟩, ⟨"B", .call ["B"] "::tokio::io::AsyncRead" "poll_read" [.pinned "x", .var "cx", .var "buf"]⟩]⟩])] true [
    ⟨"::tokio::io::AsyncRead", ["A", "B"], ["A:::tokio::io::AsyncRead", "B:::tokio::io::AsyncRead"], [], []⟩,
    ⟨"::core::marker::Unpin", ["A", "B"], ["A:::core::marker::Unpin", "B:::core::marker::Unpin"], [], []⟩] = true := by decide +kernel

/-- `tests/expand/external/tokio/async_seek.expanded.rs` -/
example : agrees [.ident "tokio1", .colon2, .ident "AsyncSeek"] "Enum" "A" "B" [
    ("::tokio::io::AsyncSeek", [⟨"::tokio::io::AsyncSeek", "start_seek", .pin, ["pos"], [⟨"A", .call ["A"] "::tokio::io::AsyncSeek" "start_seek" [.pinned "x", .var "pos"]⟩, ⟨"B", .call ["B"] "::tokio::io::AsyncSeek" "start_seek" [.pinned "x", .var "pos"]⟩]⟩,
      ⟨"::tokio::io::AsyncSeek", "poll_complete", .pin, ["cx"], [⟨"A", .call ["A"] "::tokio::io::AsyncSeek" "poll_complete" [.pinned "x", .var "cx"]⟩, ⟨"B", .call ["B"] "::tokio::io::AsyncSeek" "poll_complete" [.pinned "x", .var "cx"]⟩]⟩])] true [
    ⟨"::tokio::io::AsyncSeek", ["A", "B"], ["A:::tokio::io::AsyncSeek", "B:::tokio::io::AsyncSeek"], [], []⟩,
    ⟨"::core::marker::Unpin", ["A", "B"], ["A:::core::marker::Unpin", "B:::core::marker::Unpin"], [], []⟩] = true := by decide +kernel

/-- `tests/expand/external/tokio/async_write.expanded.rs` -/
example : agrees [.ident "tokio1", .colon2, .ident "AsyncWrite"] "Enum" "A" "B" [
    ("::tokio::io::AsyncWrite", [⟨"::tokio::io::AsyncWrite", "is_write_vectored", .ref, [], [⟨"A", .call ["A"] "::tokio::io::AsyncWrite" "is_write_vectored" [.var "x"]⟩, ⟨"B", .call ["B"] "::tokio::io::AsyncWrite" "is_write_vectored" [.var "x"]⟩]⟩,
      ⟨"::tokio::io::AsyncWrite", "poll_write", .pin, ["cx", "buf"], [⟨"A", .call ["A"] "::tokio::io::AsyncWrite" "poll_write" [.pinned "x", .var "cx", .var "buf"]⟩, ⟨"B", .call ["B"] "::tokio::io::AsyncWrite" "poll_write" [.pinned "x", .var "cx", .var "buf"]⟩]⟩,
      ⟨"::tokio::io::AsyncWrite", "poll_flush", .pin, ["cx"], [⟨"A", .call ["A"] "::tokio::io::AsyncWrite" "poll_flush" [.pinned "x", .var "cx"]⟩, ⟨"B", .call ["B"] "::tokio::io::AsyncWrite" "poll_flush" [.pinned "x", .var "cx"]⟩]⟩,
      ⟨"::tokio::io::AsyncWrite", "poll_shutdown", .pin, ["cx"], [⟨"A", .call ["A"] "::tokio::io::AsyncWrite" "poll_shutdown" [.pinned "x", .var "cx"]⟩, ⟨"B", .call ["B"] "::tokio::io::AsyncWrite" "poll_shutdown" [.pinned "x", .var "cx"]⟩]⟩,
      ⟨"::tokio::io::AsyncWrite", "poll_write_vectored", .pin, ["cx", "bufs"], [⟨"A", .call ["A"] "::tokio::io::AsyncWrite" "poll_write_vectored" [.pinned "x", .var "cx", .var "bufs"]⟩, ⟨"B", .call ["B"] "::tokio::io::AsyncWrite" "poll_write_vectored" [.pinned "x", .var "cx", .var "bufs"]⟩]⟩])] true [
    ⟨"::tokio::io::AsyncWrite", ["A", "B"], ["A:::tokio::io::AsyncWrite", "B:::tokio::io::AsyncWrite"], [], []⟩,
    ⟨"::core::marker::Unpin", ["A", "B"], ["A:::core::marker::Unpin", "B:::core::marker::Unpin"], [], []⟩] = true := by decide +kernel

/-- `tests/expand/std/debug.expanded.rs` -/
example : agrees [.ident "Debug"] "Enum" "A" "B" [
    ("::core::fmt::Debug", [⟨"::core::fmt::Debug", "fmt", .ref, ["f"], [⟨"A", .call ["A"] "::core::fmt::Debug" "fmt" [.var "x", .var "f"]⟩, ⟨"B", .call ["B"] "::core::fmt::Debug" "fmt" [.var "x", .var "f"]⟩]⟩])] false [
    ⟨"::core::fmt::Debug", ["A", "B"], ["A:::core::fmt::Debug", "B:::core::fmt::Debug"], [], []⟩] = true := by decide +kernel

/-- `tests/expand/std/error.expanded.rs` -/
example : agrees [.ident "Error"] "Enum" "A" "B" [
    ("::core::fmt::Display", [⟨"::core::fmt::Display", "fmt", .ref, ["f"], [⟨"A", .call ["A"] "::core::fmt::Display" "fmt" [.var "x", .var "f"]⟩, ⟨"B", .call ["B"] "::core::fmt::Display" "fmt" [.var "x", .var "f"]⟩]⟩]),
    ("::core::fmt::Debug", [⟨"::core::fmt::Debug", "fmt", .ref, ["f"], [⟨"A", .call ["A"] "::core::fmt::Debug" "fmt" [.var "x", .var "f"]⟩, ⟨"B", .call ["B"] "::core::fmt::Debug" "fmt" [.var "x", .var "f"]⟩]⟩]),
    ("::std::error::Error", [⟨"::std::error::Error", "description", .ref, [], [⟨"A", .call ["A"] "::std::error::Error" "description" [.var "x"]⟩, ⟨"B", .call ["B"] "::std::error::Error" "description" [.var "x"]⟩]⟩,
      ⟨"::std::error::Error", "source", .ref, [], [⟨"A", .some (.var "x")⟩, ⟨"B", .some (.var "x")⟩]⟩])] false [
    ⟨"::core::fmt::Display", ["A", "B"], ["A:::core::fmt::Display", "B:::core::fmt::Display"], [], []⟩,
    ⟨"::core::fmt::Debug", ["A", "B"], ["A:::core::fmt::Debug", "B:::core::fmt::Debug"], [], []⟩,
    ⟨"::std::error::Error", ["A", "B"], ["A:::std::error::Error", "B:::std::error::Error", "A:'static", "B:'static"], [], []⟩] = true := by decide +kernel

/-- `tests/expand/std/future.expanded.rs` -/
example : agrees [.ident "Future"] "Enum" "A" "B" [
    ("::core::future::Future", [⟨"::core::future::Future", "poll", .pin, ["cx"], [⟨"A", .call ["A"] "::core::future::Future" "poll" [.pinned "x", .var "cx"]⟩, ⟨"B", .call ["B"] "::core::future::Future" "poll" [.pinned "x", .var "cx"]⟩]⟩])] true [
    ⟨"::core::future::Future", ["A", "B"], ["A:::core::future::Future", "B:::core::future::Future<Output=<Aas::core::future::Future>::Output>"], ["Output=<Aas::core::future::Future>::Output"], []⟩,
    ⟨"::core::marker::Unpin", ["A", "B"], ["A:::core::marker::Unpin", "B:::core::marker::Unpin"], [], []⟩] = true := by decide +kernel

/-- `tests/expand/std/io/buf_read.expanded.rs` -/
example : agrees [.ident "BufRead"] "Enum" "A" "B" [
    ("::std::io::Read", [⟨"::std::io::Read", "read", .mut, ["buf"], [⟨"A", .call ["A"] "::std::io::Read" "read" [.var "x", .var "buf"]⟩, ⟨"B", .call ["B"] "::std::io::Read" "read" [.var "x", .var "buf"]⟩]⟩,
      ⟨"::std::io::Read", "read_vectored", .mut, ["bufs"], [⟨"A", .call ["A"] "::std::io::Read" "read_vectored" [.var "x", .var "bufs"]⟩, ⟨"B", .call ["B"] "::std::io::Read" "read_vectored" [.var "x", .var "bufs"]⟩]⟩,
      ⟨"::std::io::Read", "read_to_end", .mut, ["buf"], [⟨"A", .call ["A"] "::std::io::Read" "read_to_end" [.var "x", .var "buf"]⟩, ⟨"B", .call ["B"] "::std::io::Read" "read_to_end" [.var "x", .var "buf"]⟩]⟩,
      ⟨"::std::io::Read", "read_to_string", .mut, ["buf"], [⟨"A", .call ["A"] "::std::io::Read" "read_to_string" [.var "x", .var "buf"]⟩, ⟨"B", .call ["B"] "::std::io::Read" "read_to_string" [.var "x", .var "buf"]⟩]⟩,
      ⟨"::std::io::Read", "read_exact", .mut, ["buf"], [⟨"A", .call ["A"] "::std::io::Read" "read_exact" [.var "x", .var "buf"]⟩, ⟨"B", .call ["B"] "::std::io::Read" "read_exact" [.var "x", .var "buf"]⟩]⟩]),
    ("::std::io::BufRead", [⟨"::std::io::BufRead", "fill_buf", .mut, [], [⟨"A", .call ["A"] "::std::io::BufRead" "fill_buf" [.var "x"]⟩, ⟨"B", .call ["B"] "::std::io::BufRead" "fill_buf" [.var "x"]⟩]⟩,
      ⟨"::std::io::BufRead", "consume", .mut, ["amt"], [⟨"A", .call ["A"] "::std::io::BufRead" "consume" [.var "x", .var "amt"]⟩, ⟨"B", .call ["B"] "::std::io::BufRead" "consume" [.var "x", .var "amt"]⟩]⟩,
      ⟨"::std::io::BufRead", "read_until", .mut, ["byte", "buf"], [⟨"A", .call ["A"] "::std::io::BufRead" "read_until" [.var "x", .var "byte", .var "buf"]⟩, ⟨"B", .call ["B"] "::std::io::BufRead" "read_until" [.var "x", .var "byte", .var "buf"]⟩]⟩,
      ⟨"::std::io::BufRead", "read_line", .mut, ["buf"], [⟨"A", .call ["A"] "::std::io::BufRead" "read_line" [.var "x", .var "buf"]⟩, ⟨"B", .call ["B"] "::std::io::BufRead" "read_line" [.var "x", .var "buf"]⟩]⟩])] false [
    ⟨"::std::io::Read", ["A", "B"], ["A:::std::io::Read", "B:::std::io::Read"], [], []⟩,
    ⟨"::std::io::BufRead", ["A", "B"], ["A:::std::io::BufRead", "B:::std::io::BufRead"], [], []⟩] = true := by decide +kernel

/-- `tests/expand/std/io/read.expanded.rs` -/
example : agrees [.ident "Read"] "Enum" "A" "B" [
    ("::std::io::Read", [⟨"::std::io::Read", "read", .mut, ["buf"], [⟨"A", .call ["A"] "::std::io::Read" "read" [.var "x", .var "buf"]⟩, ⟨"B", .call ["B"] "::std::io::Read" "read" [.var "x", .var "buf"]⟩]⟩,
      ⟨"::std::io::Read", "read_vectored", .mut, ["bufs"], [⟨"A", .call ["A"] "::std::io::Read" "read_vectored" [.var "x", .var "bufs"]⟩, ⟨"B", .call ["B"] "::std::io::Read" "read_vectored" [.var "x", .var "bufs"]⟩]⟩,
      ⟨"::std::io::Read", "read_to_end", .mut, ["buf"], [⟨"A", .call ["A"] "::std::io::Read" "read_to_end" [.var "x", .var "buf"]⟩, ⟨"B", .call ["B"] "::std::io::Read" "read_to_end" [.var "x", .var "buf"]⟩]⟩,
      ⟨"::std::io::Read", "read_to_string", .mut, ["buf"], [⟨"A", .call ["A"] "::std::io::Read" "read_to_string" [.var "x", .var "buf"]⟩, ⟨"B", .call ["B"] "::std::io::Read" "read_to_string" [.var "x", .var "buf"]⟩]⟩,
      ⟨"::std::io::Read", "read_exact", .mut, ["buf"], [⟨"A", .call ["A"] "::std::io::Read" "read_exact" [.var "x", .var "buf"]⟩, ⟨"B", .call ["B"] "::std::io::Read" "read_exact" [.var "x", .var "buf"]⟩]⟩])] false [
    ⟨"::std::io::Read", ["A", "B"], ["A:::std::io::Read", "B:::std::io::Read"], [], []⟩] = true := by decide +kernel

/-- `tests/expand/std/io/seek.expanded.rs` -/
example : agrees [.ident "Seek"] "Enum" "A" "B" [
    ("::std::io::Seek", [⟨"::std::io::Seek", "seek", .mut, ["pos"], [⟨"A", .call ["A"] "::std::io::Seek" "seek" [.var "x", .var "pos"]⟩, ⟨"B", .call ["B"] "::std::io::Seek" "seek" [.var "x", .var "pos"]⟩]⟩])] false [
    ⟨"::std::io::Seek", ["A", "B"], ["A:::std::io::Seek", "B:::std::io::Seek"], [], []⟩] = true := by decide +kernel

/-- `tests/expand/std/io/write.expanded.rs` -/
example : agrees [.ident "Write"] "Enum" "A" "B" [
    ("::std::io::Write", [⟨"::std::io::Write", "write", .mut, ["buf"], [⟨"A", .call ["A"] "::std::io::Write" "write" [.var "x", .var "buf"]⟩, ⟨"B", .call ["B"] "::std::io::Write" "write" [.var "x", .var "buf"]⟩]⟩,
      ⟨"::std::io::Write", "write_vectored", .mut, ["bufs"], [⟨"A", .call ["A"] "::std::io::Write" "write_vectored" [.var "x", .var "bufs"]⟩, ⟨"B", .call ["B"] "::std::io::Write" "write_vectored" [.var "x", .var "bufs"]⟩]⟩,
      ⟨"::std::io::Write", "flush", .mut, [], [⟨"A", .call ["A"] "::std::io::Write" "flush" [.var "x"]⟩, ⟨"B", .call ["B"] "::std::io::Write" "flush" [.var "x"]⟩]⟩,
      ⟨"::std::io::Write", "write_all", .mut, ["buf"], [⟨"A", .call ["A"] "::std::io::Write" "write_all" [.var "x", .var "buf"]⟩, ⟨"B", .call ["B"] "::std::io::Write" "write_all" [.var "x", .var "buf"]⟩]⟩,
      ⟨"::std::io::Write", "write_fmt", .mut, ["fmt"], [⟨"A", .call ["A"] "::std::io::Write" "write_fmt" [.var "x", .var "fmt"]⟩, ⟨"B", .call ["B"] "::std::io::Write" "write_fmt" [.var "x", .var "fmt"]⟩]⟩])] false [
    ⟨"::std::io::Write", ["A", "B"], ["A:::std::io::Write", "B:::std::io::Write"], [], []⟩] = true := by decide +kernel

/-- `tests/expand/std/iter/double_ended_iterator.expanded.rs` -/
example : agrees [.ident "DoubleEndedIterator"] "Enum" "A" "B" [
    ("::core::iter::Iterator", [⟨"::core::iter::Iterator", "next", .mut, [], [⟨"A", .call ["A"] "::core::iter::Iterator" "next" [.var "x"]⟩, ⟨"B", .call ["B"] "::core::iter::Iterator" "next" [.var "x"]⟩]⟩,
      ⟨"::core::iter::Iterator", "size_hint", .ref, [], [⟨"A", .call ["A"] "::core::iter::Iterator" "size_hint" [.var "x"]⟩, ⟨"B", .call ["B"] "::core::iter::Iterator" "size_hint" [.var "x"]⟩]⟩,
      ⟨"::core::iter::Iterator", "count", .val, [], [⟨"A", .call ["A"] "::core::iter::Iterator" "count" [.var "x"]⟩, ⟨"B", .call ["B"] "::core::iter::Iterator" "count" [.var "x"]⟩]⟩,
      ⟨"::core::iter::Iterator", "last", .val, [], [⟨"A", .call ["A"] "::core::iter::Iterator" "last" [.var "x"]⟩, ⟨"B", .call ["B"] "::core::iter::Iterator" "last" [.var "x"]⟩]⟩,
      ⟨"::core::iter::Iterator", "nth", .mut, ["n"], [⟨"A", .call ["A"] "::core::iter::Iterator" "nth" [.var "x", .var "n"]⟩, ⟨"B", .call ["B"] "::core::iter::Iterator" "nth" [.var "x", .var "n"]⟩]⟩,
      ⟨"::core::iter::Iterator", "collect", .val, [], [⟨"A", .call ["A"] "::core::iter::Iterator" "collect" [.var "x"]⟩, ⟨"B", .call ["B"] "::core::iter::Iterator" "collect" [.var "x"]⟩]⟩,
      ⟨"::core::iter::Iterator", "partition", .val, ["f"], [⟨"A", .call ["A"] "::core::iter::Iterator" "partition" [.var "x", .var "f"]⟩, ⟨"B", .call ["B"] "::core::iter::Iterator" "partition" [.var "x", .var "f"]⟩]⟩,
      ⟨"::core::iter::Iterator", "fold", .val, ["init", "f"], [⟨"A", .call ["A"] "::core::iter::Iterator" "fold" [.var "x", .var "init", .var "f"]⟩, ⟨"B", .call ["B"] "::core::iter::Iterator" "fold" [.var "x", .var "init", .var "f"]⟩]⟩,
      ⟨"::core::iter::Iterator", "all", .mut, ["f"], [⟨"A", .call ["A"] "::core::iter::Iterator" "all" [.var "x", .var "f"]⟩, ⟨"B", .call ["B"] "::core::iter::Iterator" "all" [.var "x", .var "f"]⟩]⟩,
      ⟨"::core::iter::Iterator", "any", .mut, ["f"], [⟨"A", .call ["A"] "::core::iter::Iterator" "any" [.var "x", .var "f"]⟩, ⟨"B", .call ["B"] "::core::iter::Iterator" "any" [.var "x", .var "f"]⟩]⟩,
      ⟨"::core::iter::Iterator", "find", .mut, ["predicate"], [⟨"A", .call ["A"] "::core::iter::Iterator" "find" [.var "x", .var "predicate"]⟩, ⟨"B", .call ["B"] "::core::iter::Iterator" "find" [.var "x", .var "predicate"]⟩]⟩,
      ⟨"::core::iter::Iterator", "find_map", .mut, ["f"], [⟨"A", .call ["A"] "::core::iter::Iterator" "find_map" [.var "x", .var "f"]⟩, ⟨"B", .call ["B"] "::core::iter::Iterator" "find_map" [.var "x", .var "f"]⟩]⟩,
      ⟨"::core::iter::Iterator", "position", .mut, ["predicate"], [⟨"A", .call ["A"] "::core::iter::Iterator" "position" [.var "x", .var "predicate"]⟩, ⟨"B", .call ["B"] "::core::iter::Iterator" "position" [.var "x", .var "predicate"]⟩]⟩]),
    ("::core::iter::DoubleEndedIterator", [⟨"::core::iter::DoubleEndedIterator", "next_back", .mut, [], [⟨"A", .call ["A"] "::core::iter::DoubleEndedIterator" "next_back" [.var "x"]⟩, ⟨"B", .call ["B"] "::core::iter::DoubleEndedIterator" "next_back" [.var "x"]⟩]⟩,
      ⟨"::core::iter::DoubleEndedIterator", "nth_back", .mut, ["n"], [⟨"A", .call ["A"] "::core::iter::DoubleEndedIterator" "nth_back" [.var "x", .var "n"]⟩, ⟨"B", .call ["B"] "::core::iter::DoubleEndedIterator" "nth_back" [.var "x", .var "n"]⟩]⟩,
      ⟨"::core::iter::DoubleEndedIterator", "rfold", .val, ["init", "f"], [⟨"A", .call ["A"] "::core::iter::DoubleEndedIterator" "rfold" [.var "x", .var "init", .var "f"]⟩, ⟨"B", .call ["B"] "::core::iter::DoubleEndedIterator" "rfold" [.var "x", .var "init", .var "f"]⟩]⟩,
      ⟨"::core::iter::DoubleEndedIterator", "rfind", .mut, ["predicate"], [⟨"A", .call ["A"] "::core::iter::DoubleEndedIterator" "rfind" [.var "x", .var "predicate"]⟩, ⟨"B", .call ["B"] "::core::iter::DoubleEndedIterator" "rfind" [.var "x", .var "predicate"]⟩]⟩])] false [
    ⟨"::core::iter::Iterator", ["A", "B"], ["A:::core::iter::Iterator", "B:::core::iter::Iterator<Item=<Aas::core::iter::Iterator>::Item>"], ["Item=<Aas::core::iter::Iterator>::Item"], [("collect", ["__U"]), ("partition", ["__U", "__F"]), ("fold", ["__U", "__F"]), ("all", ["__F"]), ("any", ["__F"]), ("find", ["__P"]), ("find_map", ["__U", "__F"]), ("position", ["__P"])]⟩,
    ⟨"::core::iter::DoubleEndedIterator", ["A", "B"], ["A:::core::iter::DoubleEndedIterator", "B:::core::iter::DoubleEndedIterator<Item=<Aas::core::iter::Iterator>::Item>"], [], [("rfold", ["__U", "__F"]), ("rfind", ["__P"])]⟩] = true := by decide +kernel

/-- `tests/expand/std/iter/exact_size_iterator.expanded.rs` -/
example : agrees [.ident "ExactSizeIterator"] "Enum" "A" "B" [
    ("::core::iter::Iterator", [⟨"::core::iter::Iterator", "next", .mut, [], [⟨"A", .call ["A"] "::core::iter::Iterator" "next" [.var "x"]⟩, ⟨"B", .call ["B"] "::core::iter::Iterator" "next" [.var "x"]⟩]⟩,
      ⟨"::core::iter::Iterator", "size_hint", .ref, [], [⟨"A", .call ["A"] "::core::iter::Iterator" "size_hint" [.var "x"]⟩, ⟨"B", .call ["B"] "::core::iter::Iterator" "size_hint" [.var "x"]⟩]⟩,
      ⟨"::core::iter::Iterator", "count", .val, [], [⟨"A", .call ["A"] "::core::iter::Iterator" "count" [.var "x"]⟩, ⟨"B", .call ["B"] "::core::iter::Iterator" "count" [.var "x"]⟩]⟩,
      ⟨"::core::iter::Iterator", "last", .val, [], [⟨"A", .call ["A"] "::core::iter::Iterator" "last" [.var "x"]⟩, ⟨"B", .call ["B"] "::core::iter::Iterator" "last" [.var "x"]⟩]⟩,
      ⟨"::core::iter::Iterator", "nth", .mut, ["n"], [⟨"A", .call ["A"] "::core::iter::Iterator" "nth" [.var "x", .var "n"]⟩, ⟨"B", .call ["B"] "::core::iter::Iterator" "nth" [.var "x", .var "n"]⟩]⟩,
      ⟨"::core::iter::Iterator", "collect", .val, [], [⟨"A", .call ["A"] "::core::iter::Iterator" "collect" [.var "x"]⟩, ⟨"B", .call ["B"] "::core::iter::Iterator" "collect" [.var "x"]⟩]⟩,
      ⟨"::core::iter::Iterator", "partition", .val, ["f"], [⟨"A", .call ["A"] "::core::iter::Iterator" "partition" [.var "x", .var "f"]⟩, ⟨"B", .call ["B"] "::core::iter::Iterator" "partition" [.var "x", .var "f"]⟩]⟩,
      ⟨"::core::iter::Iterator", "fold", .val, ["init", "f"], [⟨"A", .call ["A"] "::core::iter::Iterator" "fold" [.var "x", .var "init", .var "f"]⟩, ⟨"B", .call ["B"] "::core::iter::Iterator" "fold" [.var "x", .var "init", .var "f"]⟩]⟩,
      ⟨"::core::iter::Iterator", "all", .mut, ["f"], [⟨"A", .call ["A"] "::core::iter::Iterator" "all" [.var "x", .var "f"]⟩, ⟨"B", .call ["B"] "::core::iter::Iterator" "all" [.var "x", .var "f"]⟩]⟩,
      ⟨"::core::iter::Iterator", "any", .mut, ["f"], [⟨"A", .call ["A"] "::core::iter::Iterator" "any" [.var "x", .var "f"]⟩, ⟨"B", .call ["B"] "::core::iter::Iterator" "any" [.var "x", .var "f"]⟩]⟩,
      ⟨"::core::iter::Iterator", "find", .mut, ["predicate"], [⟨"A", .call ["A"] "::core::iter::Iterator" "find" [.var "x", .var "predicate"]⟩, ⟨"B", .call ["B"] "::core::iter::Iterator" "find" [.var "x", .var "predicate"]⟩]⟩,
      ⟨"::core::iter::Iterator", "find_map", .mut, ["f"], [⟨"A", .call ["A"] "::core::iter::Iterator" "find_map" [.var "x", .var "f"]⟩, ⟨"B", .call ["B"] "::core::iter::Iterator" "find_map" [.var "x", .var "f"]⟩]⟩,
      ⟨"::core::iter::Iterator", "position", .mut, ["predicate"], [⟨"A", .call ["A"] "::core::iter::Iterator" "position" [.var "x", .var "predicate"]⟩, ⟨"B", .call ["B"] "::core::iter::Iterator" "position" [.var "x", .var "predicate"]⟩]⟩]),
    ("::core::iter::ExactSizeIterator", [⟨"::core::iter::ExactSizeIterator", "len", .ref, [], [⟨"A", .call ["A"] "::core::iter::ExactSizeIterator" "len" [.var "x"]⟩, ⟨"B", .call ["B"] "::core::iter::ExactSizeIterator" "len" [.var "x"]⟩]⟩])] false [
    ⟨"::core::iter::Iterator", ["A", "B"], ["A:::core::iter::Iterator", "B:::core::iter::Iterator<Item=<Aas::core::iter::Iterator>::Item>"], ["Item=<Aas::core::iter::Iterator>::Item"], [("collect", ["__U"]), ("partition", ["__U", "__F"]), ("fold", ["__U", "__F"]), ("all", ["__F"]), ("any", ["__F"]), ("find", ["__P"]), ("find_map", ["__U", "__F"]), ("position", ["__P"])]⟩,
    ⟨"::core::iter::ExactSizeIterator", ["A", "B"], ["A:::core::iter::ExactSizeIterator", "B:::core::iter::ExactSizeIterator<Item=<Aas::core::iter::Iterator>::Item>"], [], []⟩] = true := by decide +kernel

/-- `tests/expand/std/iter/extend.expanded.rs` -/
example : agrees [.ident "Extend"] "Enum" "A" "B" [
    ("::core::iter::Extend", [⟨"::core::iter::Extend", "extend", .mut, ["iter"], [⟨"A", .call ["A"] "::core::iter::Extend" "extend" [.var "x", .var "iter"]⟩, ⟨"B", .call ["B"] "::core::iter::Extend" "extend" [.var "x", .var "iter"]⟩]⟩])] false [
    ⟨"::core::iter::Extend", ["A", "B", "__A"], ["A:::core::iter::Extend<__A>", "B:::core::iter::Extend<__A>"], [], [("extend", ["__T"])]⟩] = true := by decide +kernel

/-- `tests/expand/std/iter/fused_iterator.expanded.rs` -/
example : agrees [.ident "FusedIterator"] "Enum" "A" "B" [
    ("::core::iter::Iterator", [⟨"::core::iter::Iterator", "next", .mut, [], [⟨"A", .call ["A"] "::core::iter::Iterator" "next" [.var "x"]⟩, ⟨"B", .call ["B"] "::core::iter::Iterator" "next" [.var "x"]⟩]⟩,
      ⟨"::core::iter::Iterator", "size_hint", .ref, [], [⟨"A", .call ["A"] "::core::iter::Iterator" "size_hint" [.var "x"]⟩, ⟨"B", .call ["B"] "::core::iter::Iterator" "size_hint" [.var "x"]⟩]⟩,
      ⟨"::core::iter::Iterator", "count", .val, [], [⟨"A", .call ["A"] "::core::iter::Iterator" "count" [.var "x"]⟩, ⟨"B", .call ["B"] "::core::iter::Iterator" "count" [.var "x"]⟩]⟩,
      ⟨"::core::iter::Iterator", "last", .val, [], [⟨"A", .call ["A"] "::core::iter::Iterator" "last" [.var "x"]⟩, ⟨"B", .call ["B"] "::core::iter::Iterator" "last" [.var "x"]⟩]⟩,
      ⟨"::core::iter::Iterator", "nth", .mut, ["n"], [⟨"A", .call ["A"] "::core::iter::Iterator" "nth" [.var "x", .var "n"]⟩, ⟨"B", .call ["B"] "::core::iter::Iterator" "nth" [.var "x", .var "n"]⟩]⟩,
      ⟨"::core::iter::Iterator", "collect", .val, [], [⟨"A", .call ["A"] "::core::iter::Iterator" "collect" [.var "x"]⟩, ⟨"B", .call ["B"] "::core::iter::Iterator" "collect" [.var "x"]⟩]⟩,
      ⟨"::core::iter::Iterator", "partition", .val, ["f"], [⟨"A", .call ["A"] "::core::iter::Iterator" "partition" [.var "x", .var "f"]⟩, ⟨"B", .call ["B"] "::core::iter::Iterator" "partition" [.var "x", .var "f"]⟩]⟩,
      ⟨"::core::iter::Iterator", "fold", .val, ["init", "f"], [⟨"A", .call ["A"] "::core::iter::Iterator" "fold" [.var "x", .var "init", .var "f"]⟩, ⟨"B", .call ["B"] "::core::iter::Iterator" "fold" [.var "x", .var "init", .var "f"]⟩]⟩,
      ⟨"::core::iter::Iterator", "all", .mut, ["f"], [⟨"A", .call ["A"] "::core::iter::Iterator" "all" [.var "x", .var "f"]⟩, ⟨"B", .call ["B"] "::core::iter::Iterator" "all" [.var "x", .var "f"]⟩]⟩,
      ⟨"::core::iter::Iterator", "any", .mut, ["f"], [⟨"A", .call ["A"] "::core::iter::Iterator" "any" [.var "x", .var "f"]⟩, ⟨"B", .call ["B"] "::core::iter::Iterator" "any" [.var "x", .var "f"]⟩]⟩,
      ⟨"::core::iter::Iterator", "find", .mut, ["predicate"], [⟨"A", .call ["A"] "::core::iter::Iterator" "find" [.var "x", .var "predicate"]⟩, ⟨"B", .call ["B"] "::core::iter::Iterator" "find" [.var "x", .var "predicate"]⟩]⟩,
      ⟨"::core::iter::Iterator", "find_map", .mut, ["f"], [⟨"A", .call ["A"] "::core::iter::Iterator" "find_map" [.var "x", .var "f"]⟩, ⟨"B", .call ["B"] "::core::iter::Iterator" "find_map" [.var "x", .var "f"]⟩]⟩,
      ⟨"::core::iter::Iterator", "position", .mut, ["predicate"], [⟨"A", .call ["A"] "::core::iter::Iterator" "position" [.var "x", .var "predicate"]⟩, ⟨"B", .call ["B"] "::core::iter::Iterator" "position" [.var "x", .var "predicate"]⟩]⟩]),
    ("::core::iter::FusedIterator", [])] false [
    ⟨"::core::iter::Iterator", ["A", "B"], ["A:::core::iter::Iterator", "B:::core::iter::Iterator<Item=<Aas::core::iter::Iterator>::Item>"], ["Item=<Aas::core::iter::Iterator>::Item"], [("collect", ["__U"]), ("partition", ["__U", "__F"]), ("fold", ["__U", "__F"]), ("all", ["__F"]), ("any", ["__F"]), ("find", ["__P"]), ("find_map", ["__U", "__F"]), ("position", ["__P"])]⟩,
    ⟨"::core::iter::FusedIterator", ["A", "B"], ["A:::core::iter::FusedIterator", "B:::core::iter::FusedIterator<Item=<Aas::core::iter::Iterator>::Item>"], [], []⟩] = true := by decide +kernel

/-- `tests/expand/std/iter/iterator.expanded.rs` -/
example : agrees [.ident "Iterator"] "Enum" "A" "B" [
    ("::core::iter::Iterator", [⟨"::core::iter::Iterator", "next", .mut, [], [⟨"A", .call ["A"] "::core::iter::Iterator" "next" [.var "x"]⟩, ⟨"B", .call ["B"] "::core::iter::Iterator" "next" [.var "x"]⟩]⟩,
      ⟨"::core::iter::Iterator", "size_hint", .ref, [], [⟨"A", .call ["A"] "::core::iter::Iterator" "size_hint" [.var "x"]⟩, ⟨"B", .call ["B"] "::core::iter::Iterator" "size_hint" [.var "x"]⟩]⟩,
      ⟨"::core::iter::Iterator", "count", .val, [], [⟨"A", .call ["A"] "::core::iter::Iterator" "count" [.var "x"]⟩, ⟨"B", .call ["B"] "::core::iter::Iterator" "count" [.var "x"]⟩]⟩,
      ⟨"::core::iter::Iterator", "last", .val, [], [⟨"A", .call ["A"] "::core::iter::Iterator" "last" [.var "x"]⟩, ⟨"B", .call ["B"] "::core::iter::Iterator" "last" [.var "x"]⟩]⟩,
      ⟨"::core::iter::Iterator", "nth", .mut, ["n"], [⟨"A", .call ["A"] "::core::iter::Iterator" "nth" [.var "x", .var "n"]⟩, ⟨"B", .call ["B"] "::core::iter::Iterator" "nth" [.var "x", .var "n"]⟩]⟩,
      ⟨"::core::iter::Iterator", "collect", .val, [], [⟨"A", .call ["A"] "::core::iter::Iterator" "collect" [.var "x"]⟩, ⟨"B", .call ["B"] "::core::iter::Iterator" "collect" [.var "x"]⟩]⟩,
      ⟨"::core::iter::Iterator", "partition", .val, ["f"], [⟨"A", .call ["A"] "::core::iter::Iterator" "partition" [.var "x", .var "f"]⟩, ⟨"B", .call ["B"] "::core::iter::Iterator" "partition" [.var "x", .var "f"]⟩]⟩,
      ⟨"::core::iter::Iterator", "fold", .val, ["init", "f"], [⟨"A", .call ["A"] "::core::iter::Iterator" "fold" [.var "x", .var "init", .var "f"]⟩, ⟨"B", .call ["B"] "::core::iter::Iterator" "fold" [.var "x", .var "init", .var "f"]⟩]⟩,
      ⟨"::core::iter::Iterator", "all", .mut, ["f"], [⟨"A", .call ["A"] "::core::iter::Iterator" "all" [.var "x", .var "f"]⟩, ⟨"B", .call ["B"] "::core::iter::Iterator" "all" [.var "x", .var "f"]⟩]⟩,
      ⟨"::core::iter::Iterator", "any", .mut, ["f"], [⟨"A", .call ["A"] "::core::iter::Iterator" "any" [.var "x", .var "f"]⟩, ⟨"B", .call ["B"] "::core::iter::Iterator" "any" [.var "x", .var "f"]⟩]⟩,
      ⟨"::core::iter::Iterator", "find", .mut, ["predicate"], [⟨"A", .call ["A"] "::core::iter::Iterator" "find" [.var "x", .var "predicate"]⟩, ⟨"B", .call ["B"] "::core::iter::Iterator" "find" [.var "x", .var "predicate"]⟩]⟩,
      ⟨"::core::iter::Iterator", "find_map", .mut, ["f"], [⟨"A", .call ["A"] "::core::iter::Iterator" "find_map" [.var "x", .var "f"]⟩, ⟨"B", .call ["B"] "::core::iter::Iterator" "find_map" [.var "x", .var "f"]⟩]⟩,
      ⟨"::core::iter::Iterator", "position", .mut, ["predicate"], [⟨"A", .call ["A"] "::core::iter::Iterator" "position" [.var "x", .var "predicate"]⟩, ⟨"B", .call ["B"] "::core::iter::Iterator" "position" [.var "x", .var "predicate"]⟩]⟩])] false [
    ⟨"::core::iter::Iterator", ["A", "B"], ["A:::core::iter::Iterator", "B:::core::iter::Iterator<Item=<Aas::core::iter::Iterator>::Item>"], ["Item=<Aas::core::iter::Iterator>::Item"], [("collect", ["__U"]), ("partition", ["__U", "__F"]), ("fold", ["__U", "__F"]), ("all", ["__F"]), ("any", ["__F"]), ("find", ["__P"]), ("find_map", ["__U", "__F"]), ("position", ["__P"])]⟩] = true := by decide +kernel

/-- `tests/expand/std/iter/trusted_len.expanded.rs` -/
example : agrees [.ident "TrustedLen"] "Enum" "A" "B" [
    ("::core::iter::Iterator", [⟨"::core::iter::Iterator", "next", .mut, [], [⟨"A", .call ["A"] "::core::iter::Iterator" "next" [.var "x"]⟩, ⟨"B", .call ["B"] "::core::iter::Iterator" "next" [.var "x"]⟩]⟩,
      ⟨"::core::iter::Iterator", "size_hint", .ref, [], [⟨"A", .call ["A"] "::core::iter::Iterator" "size_hint" [.var "x"]⟩, ⟨"B", .call ["B"] "::core::iter::Iterator" "size_hint" [.var "x"]⟩]⟩,
      ⟨"::core::iter::Iterator", "count", .val, [], [⟨"A", .call ["A"] "::core::iter::Iterator" "count" [.var "x"]⟩, ⟨"B", .call ["B"] "::core::iter::Iterator" "count" [.var "x"]⟩]⟩,
      ⟨"::core::iter::Iterator", "last", .val, [], [⟨"A", .call ["A"] "::core::iter::Iterator" "last" [.var "x"]⟩, ⟨"B", .call ["B"] "::core::iter::Iterator" "last" [.var "x"]⟩]⟩,
      ⟨"::core::iter::Iterator", "nth", .mut, ["n"], [⟨"A", .call ["A"] "::core::iter::Iterator" "nth" [.var "x", .var "n"]⟩, ⟨"B", .call ["B"] "::core::iter::Iterator" "nth" [.var "x", .var "n"]⟩]⟩,
      ⟨"::core::iter::Iterator", "collect", .val, [], [⟨"A", .call ["A"] "::core::iter::Iterator" "collect" [.var "x"]⟩, ⟨"B", .call ["B"] "::core::iter::Iterator" "collect" [.var "x"]⟩]⟩,
      ⟨"::core::iter::Iterator", "partition", .val, ["f"], [⟨"A", .call ["A"] "::core::iter::Iterator" "partition" [.var "x", .var "f"]⟩, ⟨"B", .call ["B"] "::core::iter::Iterator" "partition" [.var "x", .var "f"]⟩]⟩,
      ⟨"::core::iter::Iterator", "fold", .val, ["init", "f"], [⟨"A", .call ["A"] "::core::iter::Iterator" "fold" [.var "x", .var "init", .var "f"]⟩, ⟨"B", .call ["B"] "::core::iter::Iterator" "fold" [.var "x", .var "init", .var "f"]⟩]⟩,
      ⟨"::core::iter::Iterator", "all", .mut, ["f"], [⟨"A", .call ["A"] "::core::iter::Iterator" "all" [.var "x", .var "f"]⟩, ⟨"B", .call ["B"] "::core::iter::Iterator" "all" [.var "x", .var "f"]⟩]⟩,
      ⟨"::core::iter::Iterator", "any", .mut, ["f"], [⟨"A", .call ["A"] "::core::iter::Iterator" "any" [.var "x", .var "f"]⟩, ⟨"B", .call ["B"] "::core::iter::Iterator" "any" [.var "x", .var "f"]⟩]⟩,
      ⟨"::core::iter::Iterator", "find", .mut, ["predicate"], [⟨"A", .call ["A"] "::core::iter::Iterator" "find" [.var "x", .var "predicate"]⟩, ⟨"B", .call ["B"] "::core::iter::Iterator" "find" [.var "x", .var "predicate"]⟩]⟩,
      ⟨"::core::iter::Iterator", "find_map", .mut, ["f"], [⟨"A", .call ["A"] "::core::iter::Iterator" "find_map" [.var "x", .var "f"]⟩, ⟨"B", .call ["B"] "::core::iter::Iterator" "find_map" [.var "x", .var "f"]⟩]⟩,
      ⟨"::core::iter::Iterator", "position", .mut, ["predicate"], [⟨"A", .call ["A"] "::core::iter::Iterator" "position" [.var "x", .var "predicate"]⟩, ⟨"B", .call ["B"] "::core::iter::Iterator" "position" [.var "x", .var "predicate"]⟩]⟩]),
    ("::core::iter::TrustedLen", [])] false [
    ⟨"::core::iter::Iterator", ["A", "B"], ["A:::core::iter::Iterator", "B:::core::iter::Iterator<Item=<Aas::core::iter::Iterator>::Item>"], ["Item=<Aas::core::iter::Iterator>::Item"], [("collect", ["__U"]), ("partition", ["__U", "__F"]), ("fold", ["__U", "__F"]), ("all", ["__F"]), ("any", ["__F"]), ("find", ["__P"]), ("find_map", ["__U", "__F"]), ("position", ["__P"])]⟩,
    ⟨"::core::iter::TrustedLen", ["A", "B"], ["A:::core::iter::TrustedLen", "B:::core::iter::TrustedLen<Item=<Aas::core::iter::Iterator>::Item>"], [], []⟩] = true := by decide +kernel

end AutoEnums.Derive.ExpandSuite
