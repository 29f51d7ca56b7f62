import Verif.Spec.Visible

/-!
# Specification vocabulary: `return` and `?`

Nothing in this file refers to the model of the code.
-/

namespace AutoEnums.Spec

/-- What the value of a `return` or the operand of `?` looks like. -/
inductive Val where
  /-- A macro call. -/
  | mac (p : Path)
  /-- It, or the function it calls, carries an `auto_enum` attribute of its own. -/
  | inner
  /-- A call of the function or constructor `p`. -/
  | call (p : Path)
  /-- Anything else. -/
  | other
deriving DecidableEq, Repr

/-- The node has an `auto_enum` attribute. -/
def hasName : Node → Bool
  | .mk _ as _ => as.any (named "auto_enum")

/-- The function of a call. -/
def calleeOf : List Node → Val
  | .mk (.ePath false p) as _ :: _ => if as.any (named "auto_enum") then .inner else .call p
  | n :: _ => if hasName n then .inner else .other
  | [] => .other

def valOf : Node → Val
  | .mk k as ks =>
    match k with
    | .eMacro p _ => .mac p
    | .eCall => if as.any (named "auto_enum") then .inner else calleeOf ks
    | _ => if as.any (named "auto_enum") then .inner else .other

/-- Where a `return` or `?` is. -/
structure Where where
  /-- Inside a closure. -/
  closure : Bool := false
  /-- Inside a `try` block. -/
  tryBlock : Bool := false
  /-- Inside an `async` block. -/
  asyncBlock : Bool := false
  /-- Inside the tokens of a macro call. -/
  tokens : Bool := false
deriving DecidableEq, Repr

def Where.enter (w : Where) : Kind → Where
  | .eClosure _ => { w with closure := true }
  | .eTryBlock => { w with tryBlock := true }
  | .eAsync => { w with asyncBlock := true }
  | .eMacro _ _ => { w with tokens := true }
  | _ => w

inductive ExitKind where
  | ret
  | try_
deriving DecidableEq, Repr

/-- A `return` or `?`. -/
structure Exit where
  kind : ExitKind
  loc : Where
  /-- It is annotated `#[never]`. -/
  never : Bool
  value : Option Val
deriving DecidableEq, Repr

/-- The attributes contain `#[never]`. -/
def isNever (as : List Attr) : Bool := as.any fun a => named "never" a && a.form == .path

/-- The value of a `return` or operand of `?`. -/
def valueOf : ExitKind → List Node → Option Val
  | .ret, ks => ks.head?.map valOf
  | .try_, [e] => some (valOf e)
  | .try_, _ => none

/-- Code that is not looked at: nested items, statement macros and, unless `cl`, closures.
(An expression statement has exactly one child; trees where it does not are no programs.) -/
def skips (cl : Bool) : Kind → List Node → Bool
  | .sItem _, _ | .sMacro _ _, _ | .eVerbatim _, _ => true
  | .eClosure _, _ => !cl
  | .sExpr _, ks => ks.length != 1
  | _, _ => false

mutual
/-- The `return`s and `?`s of a tree in the order of the tokens `return` and `?`; those of closures
only if `cl`. -/
def exits (cl : Bool) (w : Where) : Node → List Exit
  | .mk k as ks =>
    if skips cl k ks then []
    else (if k = .eReturn then [⟨.ret, w.enter k, isNever as, valueOf .ret ks⟩] else []) ++
      exitsL cl (w.enter k) ks ++
      (if k = .eTry then [⟨.try_, w.enter k, isNever as, valueOf .try_ ks⟩] else [])
def exitsL (cl : Bool) (w : Where) : List Node → List Exit
  | [] => []
  | n :: ns => exits cl w n ++ exitsL cl w ns
end

/-- Two lists related element by element. -/
inductive Aligned {α β : Type} (R : α → β → Prop) : List α → List β → Prop where
  | nil : Aligned R [] []
  | cons : R a b → Aligned R l l' → Aligned R (a :: l) (b :: l')

/-- A value before and after: macro calls and values with an inner attribute may become anything. -/
def Val.Becomes (a b : Val) : Prop := b = a ∨ (∃ p, a = .mac p) ∨ a = .inner

def valueKept : Option Val → Option Val → Prop
  | none, none => True
  | some v, some v' => v.Becomes v'
  | _, _ => False

/-- The `return` or `?` is left alone: no value is added and a value that is a call or something
else stays a call of the same function or something else. -/
def Exit.Kept (a b : Exit) : Prop := b.kind = a.kind ∧ valueKept a.value b.value

/-- It belongs to the function itself and is not excluded by `#[never]` or by being a call of the
macro `m`. -/
def Exit.ours (m : String) (a : Exit) : Bool :=
  !a.loc.closure && !a.loc.tokens && !a.never && a.value != some (.mac ⟨false, [⟨m, none⟩]⟩)

mutual
/-- Expression statements and operators `?` have exactly one child, as in every program. -/
def shaped : Node → Bool
  | .mk k _ ks =>
    (match k, ks with
      | .sExpr _, [_] | .eTry, [_] => true
      | .sExpr _, _ | .eTry, _ => false
      | _, _ => true) && shapedL ks
def shapedL : List Node → Bool
  | [] => true
  | n :: ns => shaped n && shapedL ns
end

/-- The number of `return`s (of `?`s) that belong to the function itself, have no `#[never]` and are
no call of the macro `m`. -/
def ourCount (x : ExitKind) (m : String) (l : List Exit) : Nat :=
  (l.filter fun a => a.kind == x && a.ours m).length

/-- The path is `Result`, `std::result::Result` or `core::result::Result`, with any generic
arguments and with or without a leading `::`. -/
def IsResult (p : Path) : Prop :=
  p.segs.map (·.ident) ∈ [["Result"], ["std", "result", "Result"], ["core", "result", "Result"]]

instance (p : Path) : Decidable (IsResult p) := by unfold IsResult; infer_instance

/-- The path `::core::result::Result::Err`. -/
def resultErr : Path := ⟨true, [⟨"core", none⟩, ⟨"result", none⟩, ⟨"Result", none⟩, ⟨"Err", none⟩]⟩

/-- The value is a call of a constructor of the enum `en`. -/
def ctorOf (en : Ident) : Option Val → Bool
  | some (.call p) => p.segs.head?.map (·.ident) == some en
  | _ => false

/-- The value is no macro call and has no `auto_enum` attribute. -/
def plainValue : Option Val → Bool
  | some (.mac _) | some .inner => false
  | _ => true

/-- What happens to a `return` or `?` of a function whose `return`s are wrapped. -/
def Exit.RetFate (en : Ident) (m : String) (a b : Exit) : Prop :=
  if a.kind = .ret ∧ a.ours m = true then
    b.kind = .ret ∧ ∃ i : Nat, b.value = some (.call (variantPath en ("__Variant" ++ toString i)))
  else a.Kept b

/-- What happens to a `return` or `?` of a function whose `?`s are desugared. -/
def Exit.TryFate (m : String) (a b : Exit) : Prop :=
  if a.kind = .try_ ∧ a.ours m = true ∧ a.loc.tryBlock = false ∧ a.value.isSome = true then
    b.kind = .ret ∧ b.value = some (.call resultErr)
  else a.Kept b

end AutoEnums.Spec
