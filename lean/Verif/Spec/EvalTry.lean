import Verif.Spec.Eval

/-!
# Specification vocabulary: evaluation of `?`

What the comparison of behaviours needs in the mode that desugars `?`.  Nothing in this file refers to
the model of the code.
-/

namespace AutoEnums.Spec

variable {B S : Type}

/-- The variable of this name. -/
def variable_ (x : Ident) : Kind := .ePath false ⟨false, [⟨x, none⟩]⟩

/-- The machine knows what `Ok(v)` and `Err(v)` are.  A pattern binds a variable, which is not visible
after its only use (the states are those seen by the rest of the code). -/
structure Results (M : Machine B S) where
  /-- `Ok(v)` -/
  ok : Value B → Value B
  fails_ok : ∀ v, M.fails (ok v) = false
  /-- `Ok(v)?` is `v`. -/
  tryOk : ∀ v s, M.step .eTry [ok v] s = .done v s
  /-- `Ok(v)` matches the pattern `Ok(val)`, binding `val` to `v`. -/
  okArm : ∀ v s, (M.test "::core::result::Result::Ok(val)" (ok v) s).1 = true ∧
    M.step (variable_ "val") [] (M.test "::core::result::Result::Ok(val)" (ok v) s).2 = .done v s
  /-- `Err(v)` does not match the pattern `Ok(val)`. -/
  errMiss : ∀ v s, M.test "::core::result::Result::Ok(val)" (M.err v) s = (false, s)
  /-- `Err(v)` matches the pattern `Err(err)`, binding `err` to `v`. -/
  errArm : ∀ v s, (M.test "::core::result::Result::Err(err)" (M.err v) s).1 = true ∧
    M.step (variable_ "err") [] (M.test "::core::result::Result::Err(err)" (M.err v) s).2 = .done v s

/-- The values of the code are `Ok(..)` and `Err(..)`. -/
def YieldsResults (M : Machine B S) (ok : Value B → Value B) (en : Ident) (n : Node) : Prop :=
  ∀ f x s v s', eval M en f n x s = some (.val v, s') → ∃ u, v = ok u ∨ v = M.err u

mutual
/-- `?` is applied to `Result`s and not annotated `#[never]` (but for `try` blocks, which catch their
`?`s); there are no calls of the marker; and `async` blocks have no `?`, which are taken for those of the
function (C09).  `caught`: inside of a `try` block. -/
def Fallible (M : Machine B S) (ok : Value B → Value B) (J : Job) (caught : Bool) : Node → Prop
  | .mk k as ks =>
    (∀ p t, k = .eMacro p t → p ≠ ⟨false, [⟨J.marker, none⟩]⟩) ∧
    (k = .eTry → caught = false → marked "never" as = false ∧ ∃ e, ks = [e] ∧ YieldsResults M ok J.en e) ∧
    (isFrozen k = true → (∀ l ∈ visibleL ks, ∀ p t, l.1 = .eMacro p t → p ≠ ⟨false, [⟨J.marker, none⟩]⟩) ∧
      (k = .eAsync → ∀ l ∈ visibleL ks, l.1 ≠ .eTry)) ∧
    (hidesCode k = false → isFrozen k = false → FallibleL M ok J (caught || k == .eTryBlock) ks)
def FallibleL (M : Machine B S) (ok : Value B → Value B) (J : Job) (caught : Bool) : List Node → Prop
  | [] => True
  | n :: ns => Fallible M ok J caught n ∧ FallibleL M ok J caught ns
end

/-- The second outcome is the first one, except that a `?` that fails with `Err(v)` has become a `return`
of `Err(..)` of `v`, wrapped in one of the variants `vs`. -/
def Desugars (M : Machine B S) (vs : List Ident) (o o' : Outcome B) : Prop :=
  match o with
  | .fail w => ∃ v, w = M.err v ∧ ∃ x ∈ vs, o' = .ret (M.err (.inj x v))
  | o => o' = o

end AutoEnums.Spec
