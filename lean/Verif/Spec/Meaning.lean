import Verif.Spec.EvalTry
import Verif.Spec.Edit

/-!
# Specification vocabulary: code seen by observers that look through constructors

An evaluator that knows nothing about generated enums: their constructors are functions like any other, and
what a call of them does is up to the machine.  It describes the same control flow as `Verif.Spec.Eval`, and
moreover what code that is not run on the spot means: the machine gets the meanings of its parts, not its text.
Nothing in this file refers to the model of the code.
-/

namespace AutoEnums.Spec

variable {B S : Type}

/-- Closures and `async` blocks: their value, given the meanings of their parts; `none` for a panic. -/
abbrev Code (B S : Type) := Kind → List (Den B S) → S → Option (Value B) × S

/-- The pattern of a `let` without its type. -/
def LetPat.untyped : LetPat → LetPat
  | .plain s | .typed s _ => .plain s

namespace Eval

/-- The nodes where `x` is the value that the arms of the enclosing `match` are about. -/
def under (x : Value B) (ds : List (Den B S)) : List (Den B S) := ds.map fun d _ => d x

/-- The value of code that is not run on the spot. -/
def settle (r : Option (Value B) × S) : Res B S :=
  match r with
  | (some v, s) => some (.val v, s)
  | (Option.none, s) => some (.panic, s)

/-- `m!(e)` for one of the markers `m`. -/
def isMark (marks : String → Bool) : Path → Nat → Bool
  | ⟨false, [⟨m, Option.none⟩]⟩, 1 => marks m
  | _, _ => false

/-- The meaning of a node, given those of its kids.  A marker call `m!(e)` means `e`. -/
def mean (M : Machine B S) (code : Code B S) (marks : String → Bool) (f : Nat) (k : Kind) (ks : List Node)
    (ds : List (Den B S)) : Den B S :=
  fun x s =>
    let es := under x ds
    match k with
    | .block | .eUnsafe | .eConst => stmts M es s
    | .eBlock l => labelled l (stmts M es s)
    | .sExpr semi => if semi then discard M (kid M es 0 s) else kid M es 0 s
    | .sLocal p => discard M (first M (.sLocal (LetPat.untyped p)) es f s)
    | .eMethodCall m => first M (.eMethodCall m) es f s
    | .sItem _ => some (.val (unit M), s)
    | .eParen | .eGroup => kid M es 0 s
    | .eMatch => andThen (kid M es 0 s) fun v s => arms v ds.tail s
    | .arm p => arm M p es x s
    | .eIf => cond M es s
    | .eLoop l => loop l (kid M es 0) f s
    | .eWhile l => while_ M l (kid M es 0) (kid M es 1) f s
    | .eForLoop l p => andThen (kid M es 0 s) fun v s => for_ M (.eForLoop l p) l v (kid M es 1) f s
    | .eBreak l =>
      if es.isEmpty then some (.brk l (unit M), s)
      else andThen (kid M es 0 s) fun v s => some (.brk l v, s)
    | .eContinue l => some (.cont l, s)
    | .eReturn =>
      if es.isEmpty then some (.ret (unit M), s)
      else andThen (kid M es 0 s) fun v s => some (.ret v, s)
    | .eTry => andThen (kid M es 0 s) fun v s =>
        if M.fails v then some (.fail v, s)
        else match M.step .eTry [v] s with
          | .done v s => some (.val v, s)
          | .kid _ s | .panic s => some (.panic, s)
    | .eTryBlock =>
      match stmts M es s with
      | some (.val v, s) => some (.val (M.tried true v), s)
      | some (.fail v, s) => some (.val (M.tried false v), s)
      | r => r
    | .eMacro p t =>
      if isMark marks p ds.length then kid M es 0 s
      else if panics p then some (.panic, s) else settle (M.frozen (.eMacro p t) (noAttrsL ks) s)
    | .sMacro p t => if panics p then some (.panic, s) else settle (M.frozen (.sMacro p t) (noAttrsL ks) s)
    | .eVerbatim t => settle (M.frozen (.eVerbatim t) (noAttrsL ks) s)
    | .eClosure i => settle (code (.eClosure i) es s)
    | .eAsync => settle (code .eAsync es s)
    | .eTuple => if es.isEmpty then some (.val (unit M), s) else other M .eTuple es f [] s
    | k => other M k es f [] s

end Eval

mutual
/-- What a node means, with fuel `f`. -/
def meaning (M : Machine B S) (code : Code B S) (marks : String → Bool) (f : Nat) : Node → Den B S
  | .mk k _ ks => Eval.mean M code marks f k ks (meaningL M code marks f ks)
def meaningL (M : Machine B S) (code : Code B S) (marks : String → Bool) (f : Nat) : List Node → List (Den B S)
  | [] => []
  | n :: ns => meaning M code marks f n :: meaningL M code marks f ns
end

/-! ## Observers -/

/-- Values and states that an observer cannot tell apart; `exits`: nor a `?` that fails from a `return`. -/
structure Observer (B S : Type) where
  value : Value B → Value B → Prop
  state : S → S → Prop
  exits : Prop

namespace Observer

variable (O : Observer B S)

/-- Lists of values that look the same. -/
def values : List (Value B) → List (Value B) → Prop
  | [], [] => True
  | v :: vs, w :: ws => O.value v w ∧ values vs ws
  | _, _ => False

/-- Outcomes that look the same. -/
def outcome : Outcome B → Outcome B → Prop
  | .val v, .val w => O.value v w
  | .brk l v, .brk m w => m = l ∧ O.value v w
  | .cont l, .cont m => m = l
  | .ret v, .ret w => O.value v w
  | .fail v, .fail w => O.value v w
  | .fail v, .ret w => O.exits ∧ O.value v w
  | .panic, .panic | .miss, .miss => True
  | _, _ => False

/-- Evaluations that look the same: neither ends, or both do. -/
def result : Res B S → Res B S → Prop
  | none, none => True
  | some (o, s), some (o', s') => O.outcome o o' ∧ O.state s s'
  | _, _ => False

/-- Meanings that look the same. -/
def den (d e : Den B S) : Prop := ∀ x y s t, O.value x y → O.state s t → O.result (d x s) (e y t)

/-- Lists of meanings that look the same. -/
def dens : List (Den B S) → List (Den B S) → Prop
  | [], [] => True
  | d :: ds, e :: es => O.den d e ∧ dens ds es
  | _, _ => False

/-- Machine steps that look the same. -/
def act : Act B S → Act B S → Prop
  | .kid i s, .kid j t => j = i ∧ O.state s t
  | .done v s, .done w t => O.value v w ∧ O.state s t
  | .panic s, .panic t => O.state s t
  | _, _ => False

/-- Values of code that look the same. -/
def settled : Option (Value B) × S → Option (Value B) × S → Prop
  | (some v, s), (some w, t) => O.value v w ∧ O.state s t
  | (none, s), (none, t) => O.state s t
  | _, _ => False

end Observer

/-- The machine does the same with what looks the same: the observer is the rest of the program.  In
particular, a value in a variant looks like the value. -/
structure Blind (M : Machine B S) (code : Code B S) (O : Observer B S) : Prop where
  value_refl : ∀ v, O.value v v
  value_symm : ∀ v w, O.value v w → O.value w v
  value_trans : ∀ u v w, O.value u v → O.value v w → O.value u w
  state_refl : ∀ s, O.state s s
  state_symm : ∀ s t, O.state s t → O.state t s
  state_trans : ∀ r s t, O.state r s → O.state s t → O.state r t
  step : ∀ k vs ws s t, O.values vs ws → O.state s t → O.act (M.step k vs s) (M.step k ws t)
  test : ∀ p v w s t, O.value v w → O.state s t →
    (M.test p w t).1 = (M.test p v s).1 ∧ O.state (M.test p v s).2 (M.test p w t).2
  truth : ∀ v w s t, O.value v w → O.state s t → M.truth w t = M.truth v s
  fails : ∀ v w, O.value v w → M.fails w = M.fails v
  tried : ∀ b v w, O.value v w → O.value (M.tried b v) (M.tried b w)
  frozen : ∀ k ks s t, O.state s t → O.settled (M.frozen k ks s) (M.frozen k ks t)
  code : ∀ k ds es s t, O.dens ds es → O.state s t → O.settled (code k ds s) (code k es t)
  /-- A call evaluates the callee first. -/
  callee : ∀ s, M.step .eCall [] s = .kid 0 s
  /-- A constructor of a generated enum is a function whose value looks like its argument. -/
  constructor : ∀ h i : Nat, ∃ (c : Value B) (w : Value B → Value B),
    (∀ s, M.step (.ePath false (variantPath ("__Enum" ++ toString h) ("__Variant" ++ toString i))) [] s = .done c s) ∧
    (∀ s, M.step .eCall [c] s = .kid 1 s) ∧
    (∀ v s, M.step .eCall [c, v] s = .done (w v) s) ∧ ∀ v, O.value v (w v)

/-- What the machine must know about `Result`s if `?` is desugared: the laws of `Results`, and that
`::core::result::Result::Err` is the function that maps `v` to `Err(v)`. -/
structure Errs (M : Machine B S) (O : Observer B S) extends Results M where
  /-- `::core::result::Result::Err` -/
  errFn : Value B
  path : ∀ s, M.step (.ePath false ⟨true, ["core", "result", "Result", "Err"].map fun i => ⟨i, none⟩⟩) [] s =
    .done errFn s
  arg : ∀ s, M.step .eCall [errFn] s = .kid 1 s
  call : ∀ v s, M.step .eCall [errFn, v] s = .done (M.err v) s
  err : ∀ v w, O.value v w → O.value (M.err v) (M.err w)

mutual
/-- There are no `try` blocks, and `?` is applied to `Result`s. -/
def Questions (M : Machine B S) (code : Code B S) (marks : String → Bool) (O : Observer B S)
    (ok : Value B → Value B) (f : Nat) : Node → Prop
  | .mk k _ ks =>
    k ≠ .eTryBlock ∧
    (k = .eTry → ∀ e ∈ ks, ∀ x s v s', meaning M code marks f e x s = some (.val v, s') →
      ∃ u, O.value v (ok u) ∨ O.value v (M.err u)) ∧
    QuestionsL M code marks O ok f ks
def QuestionsL (M : Machine B S) (code : Code B S) (marks : String → Bool) (O : Observer B S)
    (ok : Value B → Value B) (f : Nat) : List Node → Prop
  | [] => True
  | n :: ns => Questions M code marks O ok f n ∧ QuestionsL M code marks O ok f ns
end

/-- How many `?` there are. -/
def questions (n : Node) : Nat := (labels n).countP fun l => l.1 == .eTry

end AutoEnums.Spec
