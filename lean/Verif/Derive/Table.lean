/-!
# `derive/**`: the traits `#[enum_derive]` can implement

One record per entry of the table in `enum_derive.rs:31-174`, in the same order.
-/

namespace AutoEnums.Derive

/-- The cargo features that enable implementations (`Cargo.toml:28-88`).  `generator_trait` is an
alias of `coroutine_trait`; `unstable` gates nothing. -/
inductive Feature where
  | convert | fmt | trustedLen | ops | fnTraits | coroutineTrait | std | transposeMethods | futures03 | futures01 | rayon | serde | tokio1 | tokio03 | tokio02 | tokio01 | httpBody1
deriving DecidableEq, Repr

/-- The receiver of a method. -/
inductive Recv where
  /-- `&self` -/
  | ref
  /-- `&mut self` -/
  | mut
  /-- `self` -/
  | val
  /-- `self: Pin<&mut Self>` -/
  | pin
deriving DecidableEq, Repr

/-- The signature of a method: name, receiver and parameter names.  Simplification: types, bounds
and `unsafe`/`extern` qualifiers are not represented. -/
structure Sig where
  name : String
  recv : Recv
  params : List String := []
deriving DecidableEq, Repr

/-- The right-hand side of the arm for a variant `Enum::V(x)` with field type `Ty` in a hand-written
method. -/
inductive Body where
  /-- `<Ty as Trait>::method(Pin::new_unchecked(x), args..)` -/
  | call (method : String) (args : List String)
  /-- `Some(x)` -/
  | some
deriving DecidableEq, Repr

/-- A method written out by a `derive` function. -/
structure Manual where
  sig : Sig
  body : Body
deriving DecidableEq, Repr

/-- One implementation. -/
structure Impl where
  /-- The module of the crate. -/
  path : String
  /-- `NAME`: the spellings under which the trait is requested. -/
  names : List String
  /-- The `cfg` attribute in `enum_derive.rs:42-171`. -/
  feature : Option Feature := none
  /-- The implemented trait; empty for inherent methods. -/
  trait : String
  /-- The associated type of a supertrait that is made equal across variants. -/
  super : Option String := none
  /-- The associated types. -/
  assoc : List String := []
  /-- Whether `cx.needs_pin_projection()` is called. -/
  pin : Bool := false
  /-- The methods handed to `derive_utils` for forwarding. -/
  forwarded : List Sig := []
  /-- The methods written out. -/
  manual : List Manual := []
  /-- The supertrait that declares `super`. -/
  superTrait : String := ""
  /-- The type parameters the implementation has besides those of the enum: those of the trait,
  and those pushed by the `derive` functions of the `Fn` traits. -/
  params : List String := []
  /-- Whether the bounds are `Ty: Trait(__T) -> __U` (`ops.rs:138-225`). -/
  fnLike : Bool := false
  /-- Whether the bounds `Ty: 'static` are pushed (`error.rs:27`). -/
  static : Bool := false
  /-- The type parameters of the methods that have any. -/
  generics : List (String × List String) := []
deriving DecidableEq, Repr

/-- The table of `get_derive` (`enum_derive.rs:31-174`). -/
def table : List Impl := [
  -- `src/derive/core/convert.rs:18-31`
  { path := "core::convert::as_mut", names := ["AsMut"], feature := some .convert,
    trait := "::core::convert::AsMut",
    forwarded := [⟨"as_mut", .mut, []⟩],
    params := ["__T"] },
  -- `src/derive/core/convert.rs:3-16`
  { path := "core::convert::as_ref", names := ["AsRef"], feature := some .convert,
    trait := "::core::convert::AsRef",
    forwarded := [⟨"as_ref", .ref, []⟩],
    params := ["__T"] },
  -- `src/derive/core/fmt.rs:22-22`
  { path := "core::fmt::debug", names := ["Debug", "fmt::Debug"],
    trait := "::core::fmt::Debug",
    forwarded := [⟨"fmt", .ref, ["f"]⟩] },
  -- `src/derive/core/fmt.rs:23-23`
  { path := "core::fmt::display", names := ["Display", "fmt::Display"],
    trait := "::core::fmt::Display",
    forwarded := [⟨"fmt", .ref, ["f"]⟩] },
  -- `src/derive/core/fmt.rs:34-34`
  { path := "core::fmt::pointer", names := ["fmt::Pointer"], feature := some .fmt,
    trait := "::core::fmt::Pointer",
    forwarded := [⟨"fmt", .ref, ["f"]⟩] },
  -- `src/derive/core/fmt.rs:26-26`
  { path := "core::fmt::binary", names := ["fmt::Binary"], feature := some .fmt,
    trait := "::core::fmt::Binary",
    forwarded := [⟨"fmt", .ref, ["f"]⟩] },
  -- `src/derive/core/fmt.rs:32-32`
  { path := "core::fmt::octal", names := ["fmt::Octal"], feature := some .fmt,
    trait := "::core::fmt::Octal",
    forwarded := [⟨"fmt", .ref, ["f"]⟩] },
  -- `src/derive/core/fmt.rs:38-38`
  { path := "core::fmt::upper_hex", names := ["fmt::UpperHex"], feature := some .fmt,
    trait := "::core::fmt::UpperHex",
    forwarded := [⟨"fmt", .ref, ["f"]⟩] },
  -- `src/derive/core/fmt.rs:30-30`
  { path := "core::fmt::lower_hex", names := ["fmt::LowerHex"], feature := some .fmt,
    trait := "::core::fmt::LowerHex",
    forwarded := [⟨"fmt", .ref, ["f"]⟩] },
  -- `src/derive/core/fmt.rs:36-36`
  { path := "core::fmt::upper_exp", names := ["fmt::UpperExp"], feature := some .fmt,
    trait := "::core::fmt::UpperExp",
    forwarded := [⟨"fmt", .ref, ["f"]⟩] },
  -- `src/derive/core/fmt.rs:28-28`
  { path := "core::fmt::lower_exp", names := ["fmt::LowerExp"], feature := some .fmt,
    trait := "::core::fmt::LowerExp",
    forwarded := [⟨"fmt", .ref, ["f"]⟩] },
  -- `src/derive/core/fmt.rs:40-57`
  { path := "core::fmt::write", names := ["fmt::Write"],
    trait := "::core::fmt::Write",
    forwarded := [⟨"write_str", .mut, ["s"]⟩,
      ⟨"write_char", .mut, ["c"]⟩,
      ⟨"write_fmt", .mut, ["args"]⟩] },
  -- `src/derive/core/iter.rs:3-60`
  { path := "core::iter::iterator", names := ["Iterator"],
    trait := "::core::iter::Iterator", assoc := ["Item"],
    forwarded := [⟨"next", .mut, []⟩,
      ⟨"size_hint", .ref, []⟩,
      ⟨"count", .val, []⟩,
      ⟨"last", .val, []⟩,
      ⟨"nth", .mut, ["n"]⟩,
      ⟨"collect", .val, []⟩,
      ⟨"partition", .val, ["f"]⟩,
      ⟨"fold", .val, ["init", "f"]⟩,
      ⟨"all", .mut, ["f"]⟩,
      ⟨"any", .mut, ["f"]⟩,
      ⟨"find", .mut, ["predicate"]⟩,
      ⟨"find_map", .mut, ["f"]⟩,
      ⟨"position", .mut, ["predicate"]⟩],
    generics := [("collect", ["__U"]), ("partition", ["__U", "__F"]), ("fold", ["__U", "__F"]), ("all", ["__F"]), ("any", ["__F"]), ("find", ["__P"]), ("find_map", ["__U", "__F"]), ("position", ["__P"])] },
  -- `src/derive/core/iter.rs:62-94`
  { path := "core::iter::double_ended_iterator", names := ["DoubleEndedIterator"],
    trait := "::core::iter::DoubleEndedIterator", super := some "Item",
    forwarded := [⟨"next_back", .mut, []⟩,
      ⟨"nth_back", .mut, ["n"]⟩,
      ⟨"rfold", .val, ["init", "f"]⟩,
      ⟨"rfind", .mut, ["predicate"]⟩],
    superTrait := "::core::iter::Iterator", generics := [("rfold", ["__U", "__F"]), ("rfind", ["__P"])] },
  -- `src/derive/core/iter.rs:96-115`
  { path := "core::iter::exact_size_iterator", names := ["ExactSizeIterator"],
    trait := "::core::iter::ExactSizeIterator", super := some "Item",
    forwarded := [⟨"len", .ref, []⟩],
    superTrait := "::core::iter::Iterator" },
  -- `src/derive/core/iter.rs:117-132`
  { path := "core::iter::fused_iterator", names := ["FusedIterator"],
    trait := "::core::iter::FusedIterator", super := some "Item",
    superTrait := "::core::iter::Iterator" },
  -- `src/derive/core/iter.rs:135-150`
  { path := "core::iter::trusted_len", names := ["TrustedLen"], feature := some .trustedLen,
    trait := "::core::iter::TrustedLen", super := some "Item",
    superTrait := "::core::iter::Iterator" },
  -- `src/derive/core/iter.rs:152-166`
  { path := "core::iter::extend", names := ["Extend"],
    trait := "::core::iter::Extend",
    forwarded := [⟨"extend", .mut, ["iter"]⟩],
    params := ["__A"], generics := [("extend", ["__T"])] },
  -- `src/derive/core/ops.rs:4-18`
  { path := "core::ops::deref", names := ["Deref"], feature := some .ops,
    trait := "::core::ops::Deref", assoc := ["Target"],
    forwarded := [⟨"deref", .ref, []⟩] },
  -- `src/derive/core/ops.rs:21-39`
  { path := "core::ops::deref_mut", names := ["DerefMut"], feature := some .ops,
    trait := "::core::ops::DerefMut", super := some "Target",
    forwarded := [⟨"deref_mut", .mut, []⟩],
    superTrait := "::core::ops::Deref" },
  -- `src/derive/core/ops.rs:42-56`
  { path := "core::ops::index", names := ["Index"], feature := some .ops,
    trait := "::core::ops::Index", assoc := ["Output"],
    forwarded := [⟨"index", .ref, ["index"]⟩],
    params := ["__Idx"] },
  -- `src/derive/core/ops.rs:59-77`
  { path := "core::ops::index_mut", names := ["IndexMut"], feature := some .ops,
    trait := "::core::ops::IndexMut", super := some "Output",
    forwarded := [⟨"index_mut", .mut, ["index"]⟩],
    superTrait := "::core::ops::Index", params := ["__Idx"] },
  -- `src/derive/core/ops.rs:80-95`
  { path := "core::ops::range_bounds", names := ["RangeBounds"], feature := some .ops,
    trait := "::core::ops::RangeBounds",
    forwarded := [⟨"start_bound", .ref, []⟩,
      ⟨"end_bound", .ref, []⟩],
    params := ["__T"] },
  -- `src/derive/core/ops.rs:139-164`
  { path := "core::ops::fn_", names := ["Fn"], feature := some .fnTraits,
    trait := "::core::ops::Fn",
    forwarded := [⟨"call", .ref, ["args"]⟩],
    params := ["__T", "__U"], fnLike := true },
  -- `src/derive/core/ops.rs:167-192`
  { path := "core::ops::fn_mut", names := ["FnMut"], feature := some .fnTraits,
    trait := "::core::ops::FnMut",
    forwarded := [⟨"call_mut", .mut, ["args"]⟩],
    params := ["__T", "__U"], fnLike := true },
  -- `src/derive/core/ops.rs:195-223`
  { path := "core::ops::fn_once", names := ["FnOnce"], feature := some .fnTraits,
    trait := "::core::ops::FnOnce", assoc := ["Output"],
    forwarded := [⟨"call_once", .val, ["args"]⟩],
    params := ["__T", "__U"], fnLike := true },
  -- `src/derive/core/ops.rs:98-136`
  { path := "core::ops::coroutine", names := ["Coroutine"], feature := some .coroutineTrait,
    trait := "::core::ops::Coroutine", assoc := ["Yield", "Return"], pin := true,
    manual := [⟨⟨"resume", .pin, ["arg"]⟩, .call "resume" ["arg"]⟩],
    params := ["R"] },
  -- `src/derive/core/future.rs:1-38`
  { path := "core::future", names := ["Future"],
    trait := "::core::future::Future", assoc := ["Output"], pin := true,
    manual := [⟨⟨"poll", .pin, ["cx"]⟩, .call "poll" ["cx"]⟩] },
  -- `src/derive/std/io.rs:3-35`
  { path := "std::io::read", names := ["Read", "io::Read"], feature := some .std,
    trait := "::std::io::Read",
    forwarded := [⟨"read", .mut, ["buf"]⟩,
      ⟨"read_vectored", .mut, ["bufs"]⟩,
      ⟨"read_to_end", .mut, ["buf"]⟩,
      ⟨"read_to_string", .mut, ["buf"]⟩,
      ⟨"read_exact", .mut, ["buf"]⟩] },
  -- `src/derive/std/io.rs:83-108`
  { path := "std::io::buf_read", names := ["BufRead", "io::BufRead"], feature := some .std,
    trait := "::std::io::BufRead",
    forwarded := [⟨"fill_buf", .mut, []⟩,
      ⟨"consume", .mut, ["amt"]⟩,
      ⟨"read_until", .mut, ["byte", "buf"]⟩,
      ⟨"read_line", .mut, ["buf"]⟩] },
  -- `src/derive/std/io.rs:68-81`
  { path := "std::io::seek", names := ["Seek", "io::Seek"], feature := some .std,
    trait := "::std::io::Seek",
    forwarded := [⟨"seek", .mut, ["pos"]⟩] },
  -- `src/derive/std/io.rs:37-66`
  { path := "std::io::write", names := ["Write", "io::Write"], feature := some .std,
    trait := "::std::io::Write",
    forwarded := [⟨"write", .mut, ["buf"]⟩,
      ⟨"write_vectored", .mut, ["bufs"]⟩,
      ⟨"flush", .mut, []⟩,
      ⟨"write_all", .mut, ["buf"]⟩,
      ⟨"write_fmt", .mut, ["fmt"]⟩] },
  -- `src/derive/std/error.rs:1-30`
  { path := "std::error", names := ["Error"], feature := some .std,
    trait := "::std::error::Error",
    forwarded := [⟨"description", .ref, []⟩],
    manual := [⟨⟨"source", .ref, []⟩, .some⟩],
    static := true },
  -- `src/derive/ty_impls/transpose.rs:1-130`
  { path := "ty_impls::transpose", names := ["Transpose"], feature := some .transposeMethods,
    trait := "" },
  -- `src/derive/external/futures03.rs:330-369`
  { path := "external::futures03::stream", names := ["futures03::Stream"], feature := some .futures03,
    trait := "::futures::stream::Stream", assoc := ["Item"], pin := true,
    forwarded := [⟨"size_hint", .ref, []⟩],
    manual := [⟨⟨"poll_next", .pin, ["cx"]⟩, .call "poll_next" ["cx"]⟩] },
  -- `src/derive/external/futures03.rs:240-328`
  { path := "external::futures03::sink", names := ["futures03::Sink"], feature := some .futures03,
    trait := "::futures::sink::Sink", assoc := ["Error"], pin := true,
    manual := [⟨⟨"poll_ready", .pin, ["cx"]⟩, .call "poll_ready" ["cx"]⟩,
      ⟨⟨"start_send", .pin, ["item"]⟩, .call "start_send" ["item"]⟩,
      ⟨⟨"poll_flush", .pin, ["cx"]⟩, .call "poll_flush" ["cx"]⟩,
      ⟨⟨"poll_close", .pin, ["cx"]⟩, .call "poll_close" ["cx"]⟩],
    params := ["__Item"] },
  -- `src/derive/external/futures03.rs:54-109`
  { path := "external::futures03::async_read", names := ["futures03::AsyncRead"], feature := some .futures03,
    trait := "::futures::io::AsyncRead", pin := true,
    manual := [⟨⟨"poll_read", .pin, ["cx", "buf"]⟩, .call "poll_read" ["cx", "buf"]⟩,
      ⟨⟨"poll_read_vectored", .pin, ["cx", "bufs"]⟩, .call "poll_read_vectored" ["cx", "bufs"]⟩] },
  -- `src/derive/external/futures03.rs:149-238`
  { path := "external::futures03::async_write", names := ["futures03::AsyncWrite"], feature := some .futures03,
    trait := "::futures::io::AsyncWrite", pin := true,
    manual := [⟨⟨"poll_write", .pin, ["cx", "buf"]⟩, .call "poll_write" ["cx", "buf"]⟩,
      ⟨⟨"poll_write_vectored", .pin, ["cx", "bufs"]⟩, .call "poll_write_vectored" ["cx", "bufs"]⟩,
      ⟨⟨"poll_flush", .pin, ["cx"]⟩, .call "poll_flush" ["cx"]⟩,
      ⟨⟨"poll_close", .pin, ["cx"]⟩, .call "poll_close" ["cx"]⟩] },
  -- `src/derive/external/futures03.rs:111-147`
  { path := "external::futures03::async_seek", names := ["futures03::AsyncSeek"], feature := some .futures03,
    trait := "::futures::io::AsyncSeek", pin := true,
    manual := [⟨⟨"poll_seek", .pin, ["cx", "pos"]⟩, .call "poll_seek" ["cx", "pos"]⟩] },
  -- `src/derive/external/futures03.rs:3-52`
  { path := "external::futures03::async_buf_read", names := ["futures03::AsyncBufRead"], feature := some .futures03,
    trait := "::futures::io::AsyncBufRead", pin := true,
    manual := [⟨⟨"poll_fill_buf", .pin, ["cx"]⟩, .call "poll_fill_buf" ["cx"]⟩,
      ⟨⟨"consume", .pin, ["amt"]⟩, .call "consume" ["amt"]⟩] },
  -- `src/derive/external/futures01.rs:3-18`
  { path := "external::futures01::future", names := ["futures01::Future"], feature := some .futures01,
    trait := "::futures::future::Future", assoc := ["Item", "Error"],
    forwarded := [⟨"poll", .mut, []⟩] },
  -- `src/derive/external/futures01.rs:20-37`
  { path := "external::futures01::stream", names := ["futures01::Stream"], feature := some .futures01,
    trait := "::futures::stream::Stream", assoc := ["Item", "Error"],
    forwarded := [⟨"poll", .mut, []⟩] },
  -- `src/derive/external/futures01.rs:39-61`
  { path := "external::futures01::sink", names := ["futures01::Sink"], feature := some .futures01,
    trait := "::futures::sink::Sink", assoc := ["SinkItem", "SinkError"],
    forwarded := [⟨"start_send", .mut, ["item"]⟩,
      ⟨"poll_complete", .mut, []⟩,
      ⟨"close", .mut, []⟩] },
  -- `src/derive/external/rayon.rs:3-21`
  { path := "external::rayon::par_iter", names := ["rayon::ParallelIterator"], feature := some .rayon,
    trait := "::rayon::iter::ParallelIterator", assoc := ["Item"],
    forwarded := [⟨"drive_unindexed", .val, ["consumer"]⟩,
      ⟨"opt_len", .ref, []⟩],
    generics := [("drive_unindexed", ["__C"])] },
  -- `src/derive/external/rayon.rs:23-49`
  { path := "external::rayon::indexed_par_iter", names := ["rayon::IndexedParallelIterator"], feature := some .rayon,
    trait := "::rayon::iter::IndexedParallelIterator", super := some "Item",
    forwarded := [⟨"drive", .val, ["consumer"]⟩,
      ⟨"len", .ref, []⟩,
      ⟨"with_producer", .val, ["callback"]⟩],
    superTrait := "::rayon::iter::ParallelIterator", generics := [("drive", ["__C"]), ("with_producer", ["__CB"])] },
  -- `src/derive/external/rayon.rs:51-66`
  { path := "external::rayon::par_extend", names := ["rayon::ParallelExtend"], feature := some .rayon,
    trait := "::rayon::iter::ParallelExtend",
    forwarded := [⟨"par_extend", .mut, ["par_iter"]⟩],
    params := ["__T"], generics := [("par_extend", ["__I"])] },
  -- `src/derive/external/serde.rs:3-21`
  { path := "external::serde::serialize", names := ["serde::Serialize"], feature := some .serde,
    trait := "::serde::ser::Serialize",
    forwarded := [⟨"serialize", .ref, ["serializer"]⟩],
    generics := [("serialize", ["__S"])] },
  -- `src/derive/external/tokio1.rs:52-87`
  { path := "external::tokio1::async_read", names := ["tokio1::AsyncRead"], feature := some .tokio1,
    trait := "::tokio::io::AsyncRead", pin := true,
    manual := [⟨⟨"poll_read", .pin, ["cx", "buf"]⟩, .call "poll_read" ["cx", "buf"]⟩] },
  -- `src/derive/external/tokio1.rs:141-228`
  { path := "external::tokio1::async_write", names := ["tokio1::AsyncWrite"], feature := some .tokio1,
    trait := "::tokio::io::AsyncWrite", pin := true,
    forwarded := [⟨"is_write_vectored", .ref, []⟩],
    manual := [⟨⟨"poll_write", .pin, ["cx", "buf"]⟩, .call "poll_write" ["cx", "buf"]⟩,
      ⟨⟨"poll_flush", .pin, ["cx"]⟩, .call "poll_flush" ["cx"]⟩,
      ⟨⟨"poll_shutdown", .pin, ["cx"]⟩, .call "poll_shutdown" ["cx"]⟩,
      ⟨⟨"poll_write_vectored", .pin, ["cx", "bufs"]⟩, .call "poll_write_vectored" ["cx", "bufs"]⟩] },
  -- `src/derive/external/tokio1.rs:89-139`
  { path := "external::tokio1::async_seek", names := ["tokio1::AsyncSeek"], feature := some .tokio1,
    trait := "::tokio::io::AsyncSeek", pin := true,
    manual := [⟨⟨"start_seek", .pin, ["pos"]⟩, .call "start_seek" ["pos"]⟩,
      ⟨⟨"poll_complete", .pin, ["cx"]⟩, .call "poll_complete" ["cx"]⟩] },
  -- `src/derive/external/tokio1.rs:3-50`
  { path := "external::tokio1::async_buf_read", names := ["tokio1::AsyncBufRead"], feature := some .tokio1,
    trait := "::tokio::io::AsyncBufRead", pin := true,
    manual := [⟨⟨"poll_fill_buf", .pin, ["cx"]⟩, .call "poll_fill_buf" ["cx"]⟩,
      ⟨⟨"consume", .pin, ["amt"]⟩, .call "consume" ["amt"]⟩] },
  -- `src/derive/external/tokio03.rs:52-87`
  { path := "external::tokio03::async_read", names := ["tokio03::AsyncRead"], feature := some .tokio03,
    trait := "::tokio::io::AsyncRead", pin := true,
    manual := [⟨⟨"poll_read", .pin, ["cx", "buf"]⟩, .call "poll_read" ["cx", "buf"]⟩] },
  -- `src/derive/external/tokio03.rs:141-208`
  { path := "external::tokio03::async_write", names := ["tokio03::AsyncWrite"], feature := some .tokio03,
    trait := "::tokio::io::AsyncWrite", pin := true,
    manual := [⟨⟨"poll_write", .pin, ["cx", "buf"]⟩, .call "poll_write" ["cx", "buf"]⟩,
      ⟨⟨"poll_flush", .pin, ["cx"]⟩, .call "poll_flush" ["cx"]⟩,
      ⟨⟨"poll_shutdown", .pin, ["cx"]⟩, .call "poll_shutdown" ["cx"]⟩] },
  -- `src/derive/external/tokio03.rs:89-139`
  { path := "external::tokio03::async_seek", names := ["tokio03::AsyncSeek"], feature := some .tokio03,
    trait := "::tokio::io::AsyncSeek", pin := true,
    manual := [⟨⟨"start_seek", .pin, ["pos"]⟩, .call "start_seek" ["pos"]⟩,
      ⟨⟨"poll_complete", .pin, ["cx"]⟩, .call "poll_complete" ["cx"]⟩] },
  -- `src/derive/external/tokio03.rs:3-50`
  { path := "external::tokio03::async_buf_read", names := ["tokio03::AsyncBufRead"], feature := some .tokio03,
    trait := "::tokio::io::AsyncBufRead", pin := true,
    manual := [⟨⟨"poll_fill_buf", .pin, ["cx"]⟩, .call "poll_fill_buf" ["cx"]⟩,
      ⟨⟨"consume", .pin, ["amt"]⟩, .call "consume" ["amt"]⟩] },
  -- `src/derive/external/tokio02.rs:52-101`
  { path := "external::tokio02::async_read", names := ["tokio02::AsyncRead"], feature := some .tokio02,
    trait := "::tokio::io::AsyncRead", pin := true,
    forwarded := [⟨"prepare_uninitialized_buffer", .ref, ["buf"]⟩],
    manual := [⟨⟨"poll_read", .pin, ["cx", "buf"]⟩, .call "poll_read" ["cx", "buf"]⟩] },
  -- `src/derive/external/tokio02.rs:156-232`
  { path := "external::tokio02::async_write", names := ["tokio02::AsyncWrite"], feature := some .tokio02,
    trait := "::tokio::io::AsyncWrite", pin := true,
    manual := [⟨⟨"poll_write", .pin, ["cx", "buf"]⟩, .call "poll_write" ["cx", "buf"]⟩,
      ⟨⟨"poll_flush", .pin, ["cx"]⟩, .call "poll_flush" ["cx"]⟩,
      ⟨⟨"poll_shutdown", .pin, ["cx"]⟩, .call "poll_shutdown" ["cx"]⟩] },
  -- `src/derive/external/tokio02.rs:103-154`
  { path := "external::tokio02::async_seek", names := ["tokio02::AsyncSeek"], feature := some .tokio02,
    trait := "::tokio::io::AsyncSeek", pin := true,
    manual := [⟨⟨"start_seek", .pin, ["cx", "pos"]⟩, .call "start_seek" ["cx", "pos"]⟩,
      ⟨⟨"poll_complete", .pin, ["cx"]⟩, .call "poll_complete" ["cx"]⟩] },
  -- `src/derive/external/tokio02.rs:3-50`
  { path := "external::tokio02::async_buf_read", names := ["tokio02::AsyncBufRead"], feature := some .tokio02,
    trait := "::tokio::io::AsyncBufRead", pin := true,
    manual := [⟨⟨"poll_fill_buf", .pin, ["cx"]⟩, .call "poll_fill_buf" ["cx"]⟩,
      ⟨⟨"consume", .pin, ["amt"]⟩, .call "consume" ["amt"]⟩] },
  -- `src/derive/external/tokio01.rs:3-27`
  { path := "external::tokio01::async_read", names := ["tokio01::AsyncRead"], feature := some .tokio01,
    trait := "::tokio::io::AsyncRead",
    forwarded := [⟨"prepare_uninitialized_buffer", .ref, ["buf"]⟩,
      ⟨"poll_read", .mut, ["buf"]⟩] },
  -- `src/derive/external/tokio01.rs:29-50`
  { path := "external::tokio01::async_write", names := ["tokio01::AsyncWrite"], feature := some .tokio01,
    trait := "::tokio::io::AsyncWrite",
    forwarded := [⟨"poll_write", .mut, ["buf"]⟩,
      ⟨"poll_flush", .mut, []⟩,
      ⟨"shutdown", .mut, []⟩] },
  -- `src/derive/external/http_body1.rs:3-48`
  { path := "external::http_body1::body", names := ["http_body1::Body"], feature := some .httpBody1,
    trait := "::http_body::Body", assoc := ["Data", "Error"], pin := true,
    forwarded := [⟨"is_end_stream", .ref, []⟩,
      ⟨"size_hint", .ref, []⟩],
    manual := [⟨⟨"poll_frame", .pin, ["cx"]⟩, .call "poll_frame" ["cx"]⟩] }]

end AutoEnums.Derive
