import Verif.Derive.Emit

/-!
# Running the generated methods

An abstract machine for the code in `Emit.lean`.  It is part of the trusted base: it states what
Rust's `match`, references and calls do for this fragment.
-/

namespace AutoEnums.Derive

/-- Run-time values; `α` is the type of everything the enum does not look at. -/
inductive Val (α : Type) where
  | atom (a : α)
  /-- A reference to the place at the given address. -/
  | ref (addr : Nat)
  /-- A pinned pointer. -/
  | pin (v : Val α)
  /-- An enum value, by value. -/
  | variant (name : String) (v : Val α)
  | some (v : Val α)
  | none
  | ok (v : Val α)
  | err (v : Val α)
deriving DecidableEq, Repr

/-- The memory: the discriminants of the enums by address, and everything else. -/
structure Store (μ : Type) where
  tags : Nat → Option String
  mem : μ

/-- What the generated code runs in: the layout of enums, the address of temporaries and the
implementations of the traits for the field types, which may do anything to the memory other than
changing the discriminant of an enum of which they only have a reference to the payload. -/
structure World (α μ : Type) where
  /-- The address of the payload of a variant of an enum at an address. -/
  field : Nat → String → Nat
  /-- The address of a local variable. -/
  tmp : Nat
  /-- `<ty as trait>::method(args..)` -/
  call : List String → String → String → List (Val α) → μ → μ × Val α

variable {α μ : Type}

/-- The variant `match` finds and what it binds `x` to: matching on a reference (which is what
`get_unchecked_mut` on a pinned reference returns) binds a reference to the payload. -/
def scrutinee (W : World α μ) (tags : Nat → Option String) :
    Recv → Val α → Option (String × Val α)
  | .ref, .ref a => (tags a).map fun v => (v, .ref (W.field a v))
  | .mut, .ref a => (tags a).map fun v => (v, .ref (W.field a v))
  | .pin, .pin (.ref a) => (tags a).map fun v => (v, .ref (W.field a v))
  | .val, .variant v x => some (v, x)
  | _, _ => none

/-- The value of an argument. -/
def evalAtom (W : World α μ) (env : List (String × Val α)) : Atom → Option (Val α)
  | .var x => env.lookup x
  | .pinned x => (env.lookup x).map .pin
  | .pinnedMove x => (env.lookup x).map fun _ => .pin (.ref W.tmp)

/-- The address of `self`. -/
def selfAddr : Val α → Option Nat
  | .ref a => some a
  | .pin (.ref a) => some a
  | _ => none

/-- Evaluation of the right-hand side of an arm. -/
def evalRhs (W : World α μ) (self : Val α) (env : List (String × Val α)) (st : Store μ) :
    Rhs → Option (Store μ × Val α)
  | .var x => (env.lookup x).map fun v => (st, v)
  | .call ty t m args =>
    (args.mapM (evalAtom W env)).map fun vs =>
      let r := W.call ty t m vs st.mem
      ({ st with mem := r.1 }, r.2)
  | .some e => (evalRhs W self env st e).map fun r => (r.1, .some r.2)
  | .map e v =>
    match evalRhs W self env st e with
    | some (st, .some x) => some (st, .some (.variant v x))
    | some (st, .none) => some (st, .none)
    | some (st, .ok x) => some (st, .ok (.variant v x))
    | some (st, .err x) => some (st, .err x)
    | _ => none
  | .mapErr e v =>
    match evalRhs W self env st e with
    | some (st, .ok x) => some (st, .ok x)
    | some (st, .err x) => some (st, .err (.variant v x))
    | _ => none
  | .setVariant e v =>
    match evalRhs W self env st e, selfAddr self with
    | some (st, r), some a =>
      some ({ st with tags := fun b => if b = a then some v else st.tags b }, r)
    | _, _ => none

/-- A call of a generated method. -/
def invoke (W : World α μ) (m : Method) (self : Val α) (args : List (Val α)) (st : Store μ) :
    Option (Store μ × Val α) :=
  if args.length = m.params.length then
    match scrutinee W st.tags m.recv self with
    | some (v, x) =>
      match m.arms.find? fun a => a.variant == v with
      | some arm => evalRhs W self (("x", x) :: m.params.zip args) st arm.rhs
      | none => none
    | none => none
  else none

end AutoEnums.Derive
