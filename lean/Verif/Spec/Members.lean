import Verif.Derive.Table

/-!
# Specification vocabulary: the methods that the supported traits declare

Transcribed from the documentation of the libraries that declare the traits; nothing here comes from the crate under
verification.  Unstable methods are left out unless their trait is itself unstable.
-/

namespace AutoEnums.Spec

open Derive

/-- A method declared by a trait. -/
structure Member where
  name : String
  recv : Recv
  /-- The number of parameters besides the receiver. -/
  params : Nat := 0
  /-- The number of type parameters. -/
  generics : Nat := 0
  /-- It has no default implementation. -/
  required : Bool := false
deriving DecidableEq, Repr

namespace Member

/-- A method without a default implementation. -/
def req (name : String) (recv : Recv) (params : Nat := 0) (generics : Nat := 0) : Member :=
  ⟨name, recv, params, generics, true⟩

/-- A method with a default implementation. -/
def opt (name : String) (recv : Recv) (params : Nat := 0) (generics : Nat := 0) : Member :=
  ⟨name, recv, params, generics, false⟩

end Member

open Member

/-- The methods of `core::iter::Iterator`. -/
def iteratorMembers : List Member := [
  req "next" .mut, opt "size_hint" .ref, opt "count" .val, opt "last" .val, opt "nth" .mut 1, opt "step_by" .val 1,
  opt "chain" .val 1 1, opt "zip" .val 1 1, opt "map" .val 1 2, opt "for_each" .val 1 1, opt "filter" .val 1 1,
  opt "filter_map" .val 1 2, opt "enumerate" .val, opt "peekable" .val, opt "skip_while" .val 1 1,
  opt "take_while" .val 1 1, opt "map_while" .val 1 2, opt "skip" .val 1, opt "take" .val 1, opt "scan" .val 2 3,
  opt "flat_map" .val 1 2, opt "flatten" .val, opt "fuse" .val, opt "inspect" .val 1 1, opt "by_ref" .mut,
  opt "collect" .val 0 1, opt "partition" .val 1 2, opt "try_fold" .mut 2 3, opt "try_for_each" .mut 1 2,
  opt "fold" .val 2 2, opt "reduce" .val 1 1, opt "all" .mut 1 1, opt "any" .mut 1 1, opt "find" .mut 1 1,
  opt "find_map" .mut 1 2, opt "position" .mut 1 1, opt "rposition" .mut 1 1, opt "max" .val, opt "min" .val,
  opt "max_by_key" .val 1 2, opt "max_by" .val 1 1, opt "min_by_key" .val 1 2, opt "min_by" .val 1 1, opt "rev" .val,
  opt "unzip" .val 0 4, opt "copied" .val 0 1, opt "cloned" .val 0 1, opt "cycle" .val, opt "sum" .val 0 1,
  opt "product" .val 0 1, opt "cmp" .val 1 1, opt "partial_cmp" .val 1 1, opt "eq" .val 1 1, opt "ne" .val 1 1,
  opt "lt" .val 1 1, opt "le" .val 1 1, opt "gt" .val 1 1, opt "ge" .val 1 1, opt "is_sorted" .val,
  opt "is_sorted_by" .val 1 1, opt "is_sorted_by_key" .val 1 2]

/-- The methods of `std::io::Read`. -/
def readMembers : List Member := [
  req "read" .mut 1, opt "read_vectored" .mut 1, opt "read_to_end" .mut 1, opt "read_to_string" .mut 1,
  opt "read_exact" .mut 1, opt "by_ref" .mut, opt "bytes" .val, opt "chain" .val 1 1, opt "take" .val 1]

/-- The methods of `std::io::BufRead`. -/
def bufReadMembers : List Member := [
  req "fill_buf" .mut, req "consume" .mut 1, opt "read_until" .mut 2, opt "skip_until" .mut 1, opt "read_line" .mut 1,
  opt "split" .val 1, opt "lines" .val]

/-- The methods of `std::io::Write`. -/
def writeMembers : List Member := [
  req "write" .mut 1, req "flush" .mut, opt "write_vectored" .mut 1, opt "write_all" .mut 1, opt "write_fmt" .mut 1,
  opt "by_ref" .mut]

/-- The methods of `std::io::Seek`. -/
def seekMembers : List Member := [
  req "seek" .mut 1, opt "rewind" .mut, opt "stream_position" .mut, opt "seek_relative" .mut 1]

/-- The method of the formatting traits. -/
def fmtMembers : List Member := [req "fmt" .ref 1]

/-- The methods of the supported traits, by the spelling used to request them. -/
def members : List (String × List Member) := [
  ("Iterator", iteratorMembers),
  ("DoubleEndedIterator", [req "next_back" .mut, opt "nth_back" .mut 1, opt "try_rfold" .mut 2 3, opt "rfold" .val 2 2,
    opt "rfind" .mut 1 1]),
  ("ExactSizeIterator", [opt "len" .ref]), ("FusedIterator", []), ("TrustedLen", []),
  ("Extend", [req "extend" .mut 1 1]),
  ("Future", [req "poll" .pin 1]),
  ("Read", readMembers), ("io::Read", readMembers), ("BufRead", bufReadMembers), ("io::BufRead", bufReadMembers),
  ("Write", writeMembers), ("io::Write", writeMembers), ("Seek", seekMembers), ("io::Seek", seekMembers),
  ("Deref", [req "deref" .ref]), ("DerefMut", [req "deref_mut" .mut]),
  ("Index", [req "index" .ref 1]), ("IndexMut", [req "index_mut" .mut 1]),
  ("RangeBounds", [req "start_bound" .ref, req "end_bound" .ref, opt "contains" .ref 1 1]),
  ("Fn", [req "call" .ref 1]), ("FnMut", [req "call_mut" .mut 1]), ("FnOnce", [req "call_once" .val 1]),
  ("Coroutine", [req "resume" .pin 1]),
  ("AsRef", [req "as_ref" .ref]), ("AsMut", [req "as_mut" .mut]),
  ("Debug", fmtMembers), ("fmt::Debug", fmtMembers), ("Display", fmtMembers), ("fmt::Display", fmtMembers),
  ("fmt::Binary", fmtMembers), ("fmt::LowerExp", fmtMembers), ("fmt::LowerHex", fmtMembers),
  ("fmt::Octal", fmtMembers), ("fmt::Pointer", fmtMembers), ("fmt::UpperExp", fmtMembers),
  ("fmt::UpperHex", fmtMembers),
  ("fmt::Write", [req "write_str" .mut 1, opt "write_char" .mut 1, opt "write_fmt" .mut 1]),
  ("Error", [opt "source" .ref, opt "description" .ref, opt "cause" .ref]),
  ("futures03::Stream", [req "poll_next" .pin 1, opt "size_hint" .ref]),
  ("futures03::Sink", [req "poll_ready" .pin 1, req "start_send" .pin 1, req "poll_flush" .pin 1,
    req "poll_close" .pin 1]),
  ("futures03::AsyncRead", [req "poll_read" .pin 2, opt "poll_read_vectored" .pin 2]),
  ("futures03::AsyncWrite", [req "poll_write" .pin 2, opt "poll_write_vectored" .pin 2, req "poll_flush" .pin 1,
    req "poll_close" .pin 1]),
  ("futures03::AsyncSeek", [req "poll_seek" .pin 2]),
  ("futures03::AsyncBufRead", [req "poll_fill_buf" .pin 1, req "consume" .pin 1]),
  ("futures01::Future", [req "poll" .mut]), ("futures01::Stream", [req "poll" .mut]),
  ("futures01::Sink", [req "start_send" .mut 1, req "poll_complete" .mut, opt "close" .mut]),
  ("rayon::ParallelIterator", [req "drive_unindexed" .val 1 1, opt "opt_len" .ref]),
  ("rayon::IndexedParallelIterator", [req "drive" .val 1 1, req "len" .ref, req "with_producer" .val 1 1]),
  ("rayon::ParallelExtend", [req "par_extend" .mut 1 1]),
  ("serde::Serialize", [req "serialize" .ref 1 1]),
  ("tokio1::AsyncRead", [req "poll_read" .pin 2]),
  ("tokio1::AsyncWrite", [req "poll_write" .pin 2, req "poll_flush" .pin 1, req "poll_shutdown" .pin 1,
    opt "poll_write_vectored" .pin 2, opt "is_write_vectored" .ref]),
  ("tokio1::AsyncSeek", [req "start_seek" .pin 1, req "poll_complete" .pin 1]),
  ("tokio1::AsyncBufRead", [req "poll_fill_buf" .pin 1, req "consume" .pin 1]),
  ("tokio03::AsyncRead", [req "poll_read" .pin 2]),
  ("tokio03::AsyncWrite", [req "poll_write" .pin 2, req "poll_flush" .pin 1, req "poll_shutdown" .pin 1]),
  ("tokio03::AsyncSeek", [req "start_seek" .pin 1, req "poll_complete" .pin 1]),
  ("tokio03::AsyncBufRead", [req "poll_fill_buf" .pin 1, req "consume" .pin 1]),
  ("tokio02::AsyncRead", [opt "prepare_uninitialized_buffer" .ref 1, req "poll_read" .pin 2,
    opt "poll_read_buf" .pin 2 1]),
  ("tokio02::AsyncWrite", [req "poll_write" .pin 2, req "poll_flush" .pin 1, req "poll_shutdown" .pin 1,
    opt "poll_write_buf" .pin 2 1]),
  ("tokio02::AsyncSeek", [req "start_seek" .pin 2, req "poll_complete" .pin 1]),
  ("tokio02::AsyncBufRead", [req "poll_fill_buf" .pin 1, req "consume" .pin 1]),
  ("tokio01::AsyncRead", [opt "prepare_uninitialized_buffer" .ref 1, opt "poll_read" .mut 1,
    opt "read_buf" .mut 1 1]),
  ("tokio01::AsyncWrite", [opt "poll_write" .mut 1, opt "poll_flush" .mut, req "shutdown" .mut,
    opt "write_buf" .mut 1 1]),
  ("http_body1::Body", [req "poll_frame" .pin 1, opt "is_end_stream" .ref, opt "size_hint" .ref])]

end AutoEnums.Spec
