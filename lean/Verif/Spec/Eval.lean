import Verif.Spec.Result

/-!
# Specification vocabulary: an operational semantics of control flow

An evaluator for syntax trees.  It spells out sequencing, branching, loops, `break`, `continue`,
`return` and `?`, and the construction of values of a generated enum.  Everything else (literals,
variables, calls, operators, patterns, closures, other macros, ..) is up to a `Machine`, an arbitrary
interpretation with an arbitrary state; nondeterminism and input are part of the state.  Loops and
machine steps use fuel, so that the evaluator is total: `none` stands for a run that is not finished.
Not described: scopes, moves, drops and types.  Nothing in this file refers to the model of the code.
-/

namespace AutoEnums.Spec

/-- Values: those of the machine, and `en::x(v)` for the generated enum `en`. -/
inductive Value (B : Type) where
  | base (b : B)
  | inj (x : Ident) (v : Value B)
deriving DecidableEq, Repr

/-- How an evaluation can end. -/
inductive Outcome (B : Type) where
  /-- Normally, with a value. -/
  | val (v : Value B)
  /-- `break 'l v`. -/
  | brk (l : Option String) (v : Value B)
  /-- `continue 'l`. -/
  | cont (l : Option String)
  /-- `return v`. -/
  | ret (v : Value B)
  /-- `?` on the value `v`. -/
  | fail (v : Value B)
  | panic
  /-- The arm of a `match` is not taken. -/
  | miss
deriving DecidableEq, Repr

/-- What a machine does next with a node. -/
inductive Act (B S : Type) where
  /-- Evaluate the `i`-th kid. -/
  | kid (i : Nat) (s : S)
  | done (v : Value B) (s : S)
  | panic (s : S)

/-- The meaning of everything but control flow. -/
structure Machine (B S : Type) where
  /-- The value of `()`. -/
  unit : B
  /-- What to do with a node, given the values of the kids evaluated so far. -/
  step : Kind → List (Value B) → S → Act B S
  /-- Whether the value matches the pattern of an arm, and the state with its bindings. -/
  test : String → Value B → S → Bool × S
  /-- Whether a condition holds. -/
  truth : Value B → S → Bool
  /-- The value of code that is not run on the spot, given without attributes; `none` for a panic. -/
  frozen : Kind → List Node → S → Option (Value B) × S
  /-- `None` -/
  none : Value B
  /-- `Err(v)` -/
  err : Value B → Value B
  /-- `?` returns. -/
  fails : Value B → Bool
  fails_none : fails none = true
  fails_err : ∀ v, fails (err v) = true
  /-- The value of a `try` block that ended normally or by `?`. -/
  tried : Bool → Value B → Value B

mutual
/-- The tree without attributes. -/
def noAttrs : Node → Node
  | .mk k _ ks => .mk k [] (noAttrsL ks)
def noAttrsL : List Node → List Node
  | [] => []
  | n :: ns => noAttrs n :: noAttrsL ns
end

variable {B S : Type}

/-- The result of an evaluation; `none`: not finished. -/
abbrev Res (B S : Type) := Option (Outcome B × S)

/-- The meaning of a node.  (The value is that of the scrutinee, for arms.) -/
abbrev Den (B S : Type) := Value B → S → Res B S

namespace Eval

variable (M : Machine B S)

/-- Go on with a value; any other outcome is the outcome. -/
def andThen (r : Res B S) (g : Value B → S → Res B S) : Res B S :=
  match r with
  | some (.val v, s) => g v s
  | r => r

/-- `()`. -/
def unit : Value B := .base M.unit

/-- The value is dropped. -/
def discard (r : Res B S) : Res B S := andThen r fun _ s => some (.val (unit M), s)

/-- Evaluate a kid. -/
def kid (ds : List (Den B S)) (i : Nat) (s : S) : Res B S :=
  match ds[i]? with
  | some d => d (unit M) s
  | none => some (.panic, s)

/-- A block: the value is that of the last statement. -/
def stmts : List (Den B S) → S → Res B S
  | [], s => some (.val (unit M), s)
  | [d], s => d (unit M) s
  | d :: d' :: ds, s => andThen (d (unit M) s) fun _ s => stmts (d' :: ds) s

/-- A labelled block. -/
def labelled (l : Option String) (r : Res B S) : Res B S :=
  match r with
  | some (.brk (some b) v, s) => if l = some b then some (.val v, s) else some (.brk (some b) v, s)
  | r => r

/-- The arms of a `match` on `v`. -/
def arms (v : Value B) : List (Den B S) → S → Res B S
  | [], s => some (.panic, s)
  | d :: ds, s =>
    match d v s with
    | some (.miss, s) => arms v ds s
    | r => r

/-- An arm, given the scrutinee: pattern, guard, body. -/
def arm (p : String) (ds : List (Den B S)) (v : Value B) (s : S) : Res B S :=
  let t := M.test p v s
  if t.1 then
    match ds with
    | [d] => d (unit M) t.2
    | [g, d] => andThen (g (unit M) t.2) fun c s =>
        if M.truth c s then d (unit M) s else some (.miss, s)
    | _ => some (.panic, t.2)
  else some (.miss, t.2)

/-- `if`, whose kids are the condition and the branches. -/
def cond (ds : List (Den B S)) (s : S) : Res B S :=
  andThen (kid M ds 0 s) fun c s =>
    if M.truth c s then kid M ds 1 s
    else if ds.length ≤ 2 then some (.val (unit M), s) else kid M ds 2 s

/-- `break` or `continue` with label `b` is about the innermost loop, which is labelled `l`. -/
def about (l b : Option String) : Bool := b = none || b = l

/-- A round of a loop labelled `l` ended; `next` starts the next one, `leave` ends the loop. -/
def round (l : Option String) (r : Res B S) (next : S → Res B S)
    (leave : Value B → S → Res B S) : Res B S :=
  match r with
  | some (.val _, s) => next s
  | some (.cont b, s) => if about l b then next s else some (.cont b, s)
  | some (.brk b v, s) => if about l b then leave v s else some (.brk b v, s)
  | r => r

/-- `loop` -/
def loop (l : Option String) (d : S → Res B S) : Nat → S → Res B S
  | 0, _ => Option.none
  | f + 1, s => round l (d s) (loop l d f) fun v s => some (.val v, s)

/-- `while` -/
def while_ (l : Option String) (c d : S → Res B S) : Nat → S → Res B S
  | 0, _ => Option.none
  | f + 1, s =>
    let leave : Value B → S → Res B S := fun _ s => some (.val (unit M), s)
    match c s with
    | some (.val v, s) => if M.truth v s then round l (d s) (while_ l c d f) leave else leave v s
    | r => round l r (while_ l c d f) leave

/-- The rounds of a `for`; the machine decides whether there is another one. -/
def for_ (k : Kind) (l : Option String) (v : Value B) (d : S → Res B S) : Nat → S → Res B S
  | 0, _ => Option.none
  | f + 1, s =>
    match M.step k [v] s with
    | .kid _ s => round l (d s) (for_ k l v d f) fun _ s => some (.val (unit M), s)
    | .done _ s => some (.val (unit M), s)
    | .panic s => some (.panic, s)

/-- Any other node. -/
def other (k : Kind) (ds : List (Den B S)) : Nat → List (Value B) → S → Res B S
  | 0, _, _ => Option.none
  | f + 1, vs, s =>
    match M.step k vs s with
    | .kid i s => andThen (kid M ds i s) fun v s => other k ds f (vs ++ [v]) s
    | .done v s => some (.val v, s)
    | .panic s => some (.panic, s)

/-- A node whose first kid, if any, is evaluated first. -/
def first (k : Kind) (ds : List (Den B S)) (f : Nat) (s : S) : Res B S :=
  if ds.isEmpty then other M k ds f [] s
  else andThen (kid M ds 0 s) fun v s => other M k ds f [v] s

/-- Code that is not run on the spot. -/
def freeze (k : Kind) (ks : List Node) (s : S) : Res B S :=
  match M.frozen k (noAttrsL ks) s with
  | (some v, s) => some (.val v, s)
  | (Option.none, s) => some (.panic, s)

/-- `panic!` or `unreachable!`. -/
def panics (p : Path) : Bool :=
  isOneOf [["panic"], ["std", "panic"], ["core", "panic"],
    ["unreachable"], ["std", "unreachable"], ["core", "unreachable"]] p

/-- `None` -/
def isNone (p : Path) : Bool :=
  isOneOf [["None"], ["std", "option", "Option", "None"], ["core", "option", "Option", "None"]] p

/-- `Err` -/
def isErr (p : Path) : Bool :=
  isOneOf [["Err"], ["std", "result", "Result", "Err"], ["core", "result", "Result", "Err"]] p

/-- A constructor that has a meaning of its own: `Err`, or one of the generated enum `en`. -/
def callee (en : Ident) : Kind → Option (Value B → Value B)
  | .ePath false ⟨false, [⟨e, Option.none⟩, ⟨x, Option.none⟩]⟩ => if e = en then some (.inj x) else Option.none
  | .ePath false p => if isErr p then some M.err else Option.none
  | _ => Option.none

/-- The call of such a constructor. -/
def constructor (en : Ident) : List Node → Option (Value B → Value B)
  | [c, _] => callee M en c.kind
  | _ => Option.none

/-- The meaning of a node, given those of its kids. -/
def node (en : Ident) (f : Nat) (k : Kind) (ks : List Node) (ds : List (Den B S)) : Den B S :=
  fun x s =>
    match k with
    | .block | .eUnsafe | .eConst => stmts M ds s
    | .eBlock l => labelled l (stmts M ds s)
    | .sExpr semi => if semi then discard M (kid M ds 0 s) else kid M ds 0 s
    | .sLocal p => discard M (first M (.sLocal p) ds f s)
    | .eMethodCall m => first M (.eMethodCall m) ds f s
    | .sItem _ => some (.val (unit M), s)
    | .eParen | .eGroup => kid M ds 0 s
    | .eMatch => andThen (kid M ds 0 s) fun v s => arms v ds.tail s
    | .arm p => arm M p ds x s
    | .eIf => cond M ds s
    | .eLoop l => loop l (kid M ds 0) f s
    | .eWhile l => while_ M l (kid M ds 0) (kid M ds 1) f s
    | .eForLoop l p => andThen (kid M ds 0 s) fun v s => for_ M (.eForLoop l p) l v (kid M ds 1) f s
    | .eBreak l =>
      if ds.isEmpty then some (.brk l (unit M), s)
      else andThen (kid M ds 0 s) fun v s => some (.brk l v, s)
    | .eContinue l => some (.cont l, s)
    | .eReturn =>
      if ds.isEmpty then some (.ret (unit M), s)
      else andThen (kid M ds 0 s) fun v s => some (.ret v, s)
    | .eTry => andThen (kid M ds 0 s) fun v s =>
        if M.fails v then some (.fail v, s)
        else match M.step .eTry [v] s with
          | .done v s => some (.val v, s)
          | .kid _ s | .panic s => some (.panic, s)
    | .eTryBlock =>
      match stmts M ds s with
      | some (.val v, s) => some (.val (M.tried true v), s)
      | some (.fail v, s) => some (.val (M.tried false v), s)
      | r => r
    | .eMacro p t => if panics p then some (.panic, s) else freeze M (.eMacro p t) ks s
    | .sMacro p t => if panics p then some (.panic, s) else freeze M (.sMacro p t) ks s
    | .eClosure i => freeze M (.eClosure i) ks s
    | .eAsync => freeze M .eAsync ks s
    | .eVerbatim t => freeze M (.eVerbatim t) ks s
    | .eTuple => if ds.isEmpty then some (.val (unit M), s) else other M .eTuple ds f [] s
    | .ePath q p => if q = false ∧ isNone p = true then some (.val M.none, s) else other M (.ePath q p) ds f [] s
    | .eCall =>
      match constructor M en ks with
      | some c => andThen (kid M ds 1 s) fun v s => some (.val (c v), s)
      | Option.none => other M .eCall ds f [] s
    | k => other M k ds f [] s

end Eval

mutual
/-- The evaluation of a node with fuel `f`. -/
def eval (M : Machine B S) (en : Ident) (f : Nat) : Node → Den B S
  | .mk k _ ks => Eval.node M en f k ks (evalL M en f ks)
def evalL (M : Machine B S) (en : Ident) (f : Nat) : List Node → List (Den B S)
  | [] => []
  | n :: ns => eval M en f n :: evalL M en f ns
end

/-- Running an expression in state `s` with fuel `f`. -/
def run (M : Machine B S) (en : Ident) (f : Nat) (n : Node) (s : S) : Res B S :=
  eval M en f n (Eval.unit M) s

/-- The code does not complete normally. -/
def NeverCompletes (M : Machine B S) (en : Ident) (n : Node) : Prop :=
  ∀ f x s v s', eval M en f n x s ≠ some (.val v, s')

/-! ## Which code the comparison is about -/

/-- The expression or branch can be wrapped as a whole or has its value wrapped somewhere inside. -/
def wrappable (r : Role) (k : Kind) (ks : List Node) : Bool :=
  match r, k with
  | .plain, _ => true
  | .result, .eBlock none | .result, .eUnsafe => !ks.isEmpty
  | .result, .sExpr false | .result, .eParen | .result, .eMatch | .result, .eLoop _ => true
  | .result, .eIf | .branch, .eIf => ks.length = 3
  | .branch, .arm _ | .branch, .block | .branch, .eBlock none => true
  | _, _ => false

/-- Code that is not run on the spot. -/
def isFrozen : Kind → Bool
  | .eClosure _ | .eAsync => true
  | _ => false

/-- Nothing in this closure or `async` block is wrapped: it has no calls of the marker and no
`#[nested]`, and an `async` block has no `return`s, which are taken for those of the function (C09). -/
def inertCode (J : Job) (k : Kind) (ks : List Node) : Prop :=
  (∀ l ∈ visibleL ks, ∀ p t, l.1 = .eMacro p t → p ≠ ⟨false, [⟨J.marker, none⟩]⟩) ∧
  hasNested ks = false ∧
  (k = .eAsync → J.returns = true → ∀ l ∈ visibleL ks, l.1 ≠ .eReturn)

mutual
/-- The result of the code (in the given role) is made up of branches of `match` and `if` and of
`break`s of loops, looking through blocks and parentheses; there are no calls of the marker and no
`#[nested]`; what is skipped does not complete, and what is annotated `#[never]` does not `break` out of
a loop whose value counts. -/
def Covered (M : Machine B S) (J : Job) (ts : List Target) (r : Role) : Node → Prop
  | .mk k as ks =>
    wrappable (role J r k as ks) k ks = true ∧
    (r ≠ .plain → role J r k as ks = .plain → NeverCompletes M J.en (.mk k as ks)) ∧
    (isExpression k = true → marked "never" as = true → ∀ f x s l v s',
      eval M J.en f (.mk k as ks) x s = some (.brk l v, s') → hits ts l = false) ∧
    (k = .eReturn → J.returns = true → marked "never" as = false) ∧
    (∀ p t, k = .eMacro p t → p ≠ ⟨false, [⟨J.marker, none⟩]⟩) ∧
    (carries k = true → marked "nested" as = false) ∧
    (isFrozen k = true → inertCode J k ks) ∧
    (hidesCode k = false → isFrozen k = false →
      CoveredL M J (fun i => kidTargets ts (role J r k as ks) k as i)
        (fun i => kidRole (role J r k as ks) k as ks.length i) ks)
def CoveredL (M : Machine B S) (J : Job) (ts : Nat → List Target) (rs : Nat → Role) :
    List Node → Prop
  | [] => True
  | n :: ns => Covered M J (ts 0) (rs 0) n ∧ CoveredL M J (fun i => ts (i + 1)) (fun i => rs (i + 1)) ns
end

/-- The second value is the first one, wrapped in one of the variants `vs` if `b`. -/
def wrappedIf (vs : List Ident) (b : Bool) (v v' : Value B) : Prop :=
  if b then ∃ x ∈ vs, v' = .inj x v else v' = v

/-- The second outcome is the first one, where values are wrapped if `b`, the values of `break`s that
leave a loop whose value counts are wrapped, and the values of `return`s if `returns`. -/
def Wraps (vs : List Ident) (b : Bool) (ts : List Target) (returns : Bool) : Outcome B → Outcome B → Prop
  | .val v, .val v' => wrappedIf vs b v v'
  | .brk l v, .brk l' v' => l' = l ∧ wrappedIf vs (hits ts l) v v'
  | .ret v, .ret v' => wrappedIf vs returns v v'
  | .cont l, .cont l' => l' = l
  | .fail v, .fail v' => v' = v
  | .panic, .panic => True
  | .miss, .miss => True
  | _, _ => False

/-- Two evaluations agree: neither ends, or both end in the same state with related outcomes. -/
def Agree (R : Outcome B → Outcome B → Prop) : Res B S → Res B S → Prop
  | none, none => True
  | some (o, s), some (o', s') => s' = s ∧ R o o'
  | _, _ => False

/-- The body of a closure behind a declaration; other expressions as they are. -/
def closureBody : Node → Node
  | .mk (.eBlock none) _ [_, .mk (.sExpr false) _ [.mk (.eClosure _) _ [b]]] => b
  | e => e

/-- The expression of the new expression `d` that corresponds to `bodyOf e`. -/
def bodyIn (e d : Node) : Node :=
  match e with
  | .mk (.eClosure _) _ [_] => closureBody d
  | _ => d

/-- The expression of the expansion `out` that corresponds to the one in which the wrapping of the input
`n` starts (`startOf n`): the body of the closure, the body of the function with the declaration of the
enum, or the block with the declaration and the expression. -/
def counterpart (n out : Node) : Node := bodyIn (targetOf n) (targetOf out)

/-- The variants declared for the generated enums named `en`. -/
def declared (en : Ident) (out : Node) : List Ident :=
  (enums out).flatMap fun e => if e.name = en then e.variants.map (·.1) else []

end AutoEnums.Spec
