import Verif.Derive.Eval

/-!
# Specification vocabulary: calls on an enum and calls on its payload
-/

namespace AutoEnums.Spec

open Derive

variable {α μ : Type}

/-- The methods of an implementation. -/
def sigs (i : Impl) : List Sig := i.forwarded ++ i.manual.map (·.sig)

/-- The variants of an enum have distinct names. -/
abbrev Distinct (d : Data) : Prop := (d.variants.map (·.1)).Nodup

/-- The generated `Error::source`. -/
def sourceOf (d : Data) (i : Impl) : Option Method :=
  (methods d i).find? fun m => m.name == "source"

/-- A method call: the trait, the method and the arguments. -/
structure Req (α : Type) where
  impl : Impl
  sig : Sig
  args : List (Val α)

/-- The receiver for an object at an address. -/
def selfAt (a : Nat) : Recv → Val α
  | .pin => .pin (.ref a)
  | _ => .ref a

/-- A well-formed call, of a method that borrows its receiver, of a trait among `is`.
`Error::source` is excluded because it is not forwarded. -/
structure Borrowing (is : List Impl) (r : Req α) : Prop where
  impl : r.impl ∈ is
  sig : r.sig ∈ sigs r.impl
  recv : r.sig.recv ≠ .val
  args : r.args.length = r.sig.params.length
  source : (r.impl.trait, r.sig.name) ≠ ("::std::error::Error", "source")

/-- One call on an object of type `ty` at address `a`. -/
def payloadCall (W : World α μ) (ty : List String) (a : Nat) (r : Req α) (m : μ) : μ × Val α :=
  W.call ty r.impl.trait r.sig.name (selfAt a r.sig.recv :: r.args) m

/-- A call history on an object of type `ty` at address `a`: the final memory and the results. -/
def payloadRun (W : World α μ) (ty : List String) (a : Nat) : List (Req α) → μ → μ × List (Val α)
  | [], m => (m, [])
  | r :: rs, m =>
    let (m1, v) := payloadCall W ty a r m
    let (m2, vs) := payloadRun W ty a rs m1
    (m2, v :: vs)

/-- One call on an enum at address `a`: the generated method of that name runs. -/
def enumCall (W : World α μ) (d : Data) (a : Nat) (r : Req α) (st : Store μ) :
    Option (Store μ × Val α) :=
  match (methods d r.impl).find? fun m => m.name == r.sig.name with
  | some m => invoke W m (selfAt a m.recv) r.args st
  | none => none

/-- A call history on an enum at address `a`. -/
def enumRun (W : World α μ) (d : Data) (a : Nat) :
    List (Req α) → Store μ → Option (Store μ × List (Val α))
  | [], st => some (st, [])
  | r :: rs, st =>
    match enumCall W d a r st with
    | none => none
    | some (st1, v) =>
      match enumRun W d a rs st1 with
      | none => none
      | some (st2, vs) => some (st2, v :: vs)

/-- A client: in each state it either makes a call and continues with the result, or stops. -/
structure Client (α S : Type) where
  step : S → (Req α × (Val α → S)) ⊕ Val α

/-- At most `n` calls of a client on the payload. -/
def Client.onPayload {S : Type} (c : Client α S) (W : World α μ) (ty : List String) (a : Nat) :
    Nat → S → μ → Option (μ × Val α)
  | 0, _, _ => none
  | n + 1, s, m =>
    match c.step s with
    | .inr v => some (m, v)
    | .inl (r, k) =>
      let (m1, v) := payloadCall W ty a r m
      c.onPayload W ty a n (k v) m1

/-- At most `n` calls of a client on the enum. -/
def Client.onEnum {S : Type} (c : Client α S) (W : World α μ) (d : Data) (a : Nat) :
    Nat → S → Store μ → Option (Store μ × Val α)
  | 0, _, _ => none
  | n + 1, s, st =>
    match c.step s with
    | .inr v => some (st, v)
    | .inl (r, k) =>
      match enumCall W d a r st with
      | none => none
      | some (st1, v) => c.onEnum W d a n (k v) st1

/-- `l` are the errors found by following `source` from the error at `v`. -/
inductive Chain (source : Val α → Option (Val α)) : Val α → List (Val α) → Prop where
  | done {v} : source v = none → Chain source v []
  | step {v w l} : source v = some w → Chain source w l → Chain source v (w :: l)

/-- A world that records the receivers of all calls. -/
def logged (W : World α μ) : World α (μ × List (Val α)) where
  field := W.field
  tmp := W.tmp
  call ty t m args s :=
    let r := W.call ty t m args s.1
    ((r.1, s.2 ++ args.head?.toList), r.2)

end AutoEnums.Spec
