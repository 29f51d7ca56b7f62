import Verif.Spec.Result

/-!
# Specification vocabulary: the `break`s inside a loop

Nothing in this file refers to the model of the code.
-/

namespace AutoEnums.Spec

/-- A `break`. -/
structure Brk where
  /-- It leaves the loop in question. -/
  leaves : Bool
  /-- It, or an expression around it, is annotated `#[never]`. -/
  never : Bool
  /-- It is inside the tokens of a macro call. -/
  tokens : Bool
  value : Option Val
deriving DecidableEq, Repr

/-- What a `break` in the `i`-th kid can leave, given what it can leave outside of the node.  Nothing
can be left from inside a closure or `async` block, and the iterated expression of a `for` is outside of
that loop. -/
def around (ts : List Target) (k : Kind) (i : Nat) : List Target :=
  match k with
  | .eClosure _ | .eAsync => []
  | .eLoop l | .eWhile l => ⟨l, true, false⟩ :: ts
  | .eForLoop l _ => if i = 0 then ts else ⟨l, true, false⟩ :: ts
  | .eBlock (some l) => ⟨some l, false, false⟩ :: ts
  | _ => ts

def isMacroCall : Kind → Bool
  | .eMacro _ _ => true
  | _ => false

/-- The label of a `break`. -/
def breakOf : Kind → Option (Option String)
  | .eBreak l => some l
  | _ => none

mutual
/-- The `break`s of a tree in the order of the tokens `break`, not including those of nested items.
`ts` is what encloses the tree, innermost first; the loop in question is the one with `ours`. -/
def breaks (ts : List Target) (nv tk : Bool) : Node → List Brk
  | .mk k as ks =>
    ((breakOf k).map fun l =>
      ⟨hits ts l, nv || marked "never" as, tk, ks.head?.map valOf⟩).toList ++
    if hidesCode k && !isMacroCall k then []
    else breaksL (around ts k) (nv || (isExpression k && marked "never" as)) (tk || isMacroCall k) ks
def breaksL (ts : Nat → List Target) (nv tk : Bool) : List Node → List Brk
  | [] => []
  | n :: ns => breaks (ts 0) nv tk n ++ breaksL (fun i => ts (i + 1)) nv tk ns
end

/-- The `break`s in the body of a loop with the given label. -/
def breaksIn (l : Option String) (body : Node) : List Brk := breaks [⟨l, true, true⟩] false false body

mutual
/-- The `break`s of a tree in the same order, where `leaves` says that the `break` leaves a loop whose
`break`s are wrapped (one of those in `ts`, or one that is in result position because of `#[nested]`) and
that neither it nor an expression between the two is annotated `#[never]`, and `never` that it is so
itself. -/
def nestedBreaks (J : Job) (ts : List Target) (r : Role) (tk : Bool) : Node → List Brk
  | .mk k as ks =>
    ((breakOf k).map fun l => ⟨hits (through ts k as) l, marked "never" as, tk, ks.head?.map valOf⟩).toList ++
    if hidesCode k && !isMacroCall k then []
    else nestedBreaksL J (fun i => kidTargets ts (role J r k as ks) k as i)
      (fun i => kidRole (role J r k as ks) k as ks.length i) (tk || isMacroCall k) ks
def nestedBreaksL (J : Job) (ts : Nat → List Target) (rs : Nat → Role) (tk : Bool) : List Node → List Brk
  | [] => []
  | n :: ns => nestedBreaks J (ts 0) (rs 0) tk n ++
      nestedBreaksL J (fun i => ts (i + 1)) (fun i => rs (i + 1)) tk ns
end

/-- The `break`s in the body of a loop in result position with the given label. -/
def resultBreaks (J : Job) (l : Option String) (body : Node) : List Brk :=
  nestedBreaks J [⟨l, true, true⟩] .plain false body

/-- The path of the macro `m`. -/
def macroPath (m : String) : Path := ⟨false, [⟨m, none⟩]⟩

/-- It leaves the loop in question, in the code itself, and is not excluded by `#[never]` or by being a
call of the macro `m`. -/
def Brk.ours (m : String) (a : Brk) : Bool :=
  a.leaves && !a.never && !a.tokens && a.value != some (.mac (macroPath m))

/-- The value is a call of a constructor of `en`. -/
def Constructs (en : Ident) (v : Option Val) : Prop := ∃ vn, v = some (.call (variantPath en vn))

/-- What happens to a `break`: if it is ours its value is wrapped; otherwise it stays as it is, except
that the value may be a marker. -/
def Brk.Fate (en : Ident) (m : String) (a b : Brk) : Prop :=
  if a.ours m then Constructs en b.value
  else b.value = a.value ∨ (a.value = some (.mac (macroPath m)) ∧ Constructs en b.value)

end AutoEnums.Spec
