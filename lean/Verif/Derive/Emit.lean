import Verif.Derive.Expand

/-!
# The code of the generated implementations

The methods produced by `derive_utils` (for the traits handed to it) and by the hand-written
`derive` functions, as data.
-/

namespace AutoEnums.Derive

/-- An argument of a call. -/
inductive Atom where
  /-- A variable. -/
  | var (x : String)
  /-- `Pin::new_unchecked(x)` -/
  | pinned (x : String)
  /-- `Pin::new_unchecked(&mut y)` where the local variable `y` was initialised by moving out of
  `x`.  No `derive` function produces this; it is here so that moving the payload can be
  expressed. -/
  | pinnedMove (x : String)
deriving DecidableEq, Repr

/-- The right-hand side of an arm. -/
inductive Rhs where
  /-- A variable. -/
  | var (x : String)
  /-- `<ty as trait>::method(args..)` -/
  | call (ty : List String) (trait method : String) (args : List Atom)
  /-- `Option::Some(e)` -/
  | some (e : Rhs)
  /-- `e.map(Enum::V)` -/
  | map (e : Rhs) (variant : String)
  /-- `e.map_err(Enum::V)` -/
  | mapErr (e : Rhs) (variant : String)
  /-- `{ let y = e; *self = Enum::V(..); y }`.  No `derive` function produces this; it is here so
  that changing the variant can be expressed. -/
  | setVariant (e : Rhs) (variant : String)
deriving DecidableEq, Repr

/-- The arm `Enum::variant(x) => rhs`. -/
structure Arm where
  variant : String
  rhs : Rhs
deriving DecidableEq, Repr

/-- A method whose body matches on `self`, on `self.get_unchecked_mut()` if the receiver is
pinned. -/
structure Method where
  trait : String
  name : String
  recv : Recv
  params : List String
  arms : List Arm
deriving DecidableEq, Repr

/-- A method forwarded by `derive_utils`; see for example
`tests/expand/std/iter/iterator.expanded.rs`. -/
def genForwarded (d : Data) (i : Impl) (s : Sig) : Method :=
  { trait := i.trait, name := s.name, recv := s.recv, params := s.params,
    arms := d.variants.map fun v =>
      ⟨v.1, .call v.2 i.trait s.name (.var "x" :: s.params.map .var)⟩ }

/-- A hand-written method; see for example `derive/core/future.rs:20-34` and
`derive/std/error.rs:9-16`. -/
def genManual (d : Data) (i : Impl) (m : Manual) : Method :=
  { trait := i.trait, name := m.sig.name, recv := m.sig.recv, params := m.sig.params,
    arms := d.variants.map fun v =>
      ⟨v.1, match m.body with
        | .call method args => .call v.2 i.trait method (.pinned "x" :: args.map .var)
        | .some => .some (.var "x")⟩ }

/-- The methods of a trait implementation. -/
def methods (d : Data) (i : Impl) : List Method :=
  i.forwarded.map (genForwarded d i) ++ i.manual.map (genManual d i)

/-- `transpose_option` (`transpose.rs:32-51`): for payloads that are options. -/
def transposeOption (d : Data) : Method :=
  { trait := "", name := "transpose", recv := .val, params := [],
    arms := d.variants.map fun v => ⟨v.1, .map (.var "x") v.1⟩ }

/-- `transpose_result` (`transpose.rs:53-86`): for payloads that are results. -/
def transposeResult (d : Data) : Method :=
  { trait := "", name := "transpose", recv := .val, params := [],
    arms := d.variants.map fun v => ⟨v.1, .mapErr (.map (.var "x") v.1) v.1⟩ }

/-- `transpose_ok` (`transpose.rs:88-108`). -/
def transposeOk (d : Data) : Method :=
  { trait := "", name := "transpose_ok", recv := .val, params := [],
    arms := d.variants.map fun v => ⟨v.1, .map (.var "x") v.1⟩ }

/-- `transpose_err` (`transpose.rs:110-130`). -/
def transposeErr (d : Data) : Method :=
  { trait := "", name := "transpose_err", recv := .val, params := [],
    arms := d.variants.map fun v => ⟨v.1, .mapErr (.var "x") v.1⟩ }

end AutoEnums.Derive
