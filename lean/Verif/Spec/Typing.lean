import Verif.Spec.Diverge

/-!
# Specification vocabulary: types

Typing rules for syntax trees.  They spell out sequencing, branching, loops, `break`, `continue`, `return`, `?`
the construction of values of a generated enum, and where the variables bound by `let`, by the patterns of arms, `if
let`, `while let` and `for` are in scope.  The types of everything else (literals, variables, calls, operators,
patterns, closures, other macros, ..) are up to `Rules`, which are arbitrary; so is the type of types, and so are the
scopes: they may be environments with the types of variables.  Not described: the scopes of items, inference,
coercions other than that of diverging code, lifetimes and moves.  Nothing in this file refers to the model of the
code.
-/

namespace AutoEnums.Spec

/-- What is expected of the type of an expression. -/
inductive Want (T : Type) where
  | is (t : T)
  /-- Nothing: each branch may have a type of its own. -/
  | free
  /-- The expression has no value: it has every type. -/
  | never

/-- Whether an expression of type `u` will do. -/
def Want.accepts {T : Type} : Want T → T → Prop
  | .is t, u => u = t
  | .free, _ => True
  | .never, _ => False

/-- Whether an expression that can have the given types will do. -/
def Want.holds {T : Type} (w : Want T) (P : T → Prop) : Prop :=
  match w with
  | .is t => P t
  | .free => ∃ u, P u
  | .never => (∃ u, P u) ∧ ∀ u, P u

/-- The types of everything but control flow, where `Sc` are the scopes. -/
structure Rules (T Sc : Type) where
  /-- The type of `()`. -/
  unit : T
  bool : T
  /-- In this scope, the node has this type if its kids have these types.  (A call of a function that does not return
  has every type.) -/
  node : Sc → Kind → List T → T → Prop
  /-- The pattern of an arm or of `if let` matches values of this type, and extends the first scope to the second. -/
  pat : Sc → String → T → Sc → Prop
  /-- The same for the pattern of a `let` statement, with its type annotation. -/
  lets : Sc → LetPat → T → Sc → Prop
  /-- The same for the pattern of a `for` and the type of what is iterated over. -/
  iter : Sc → String → T → Sc → Prop
  /-- The type of code that is not run on the spot, given without attributes. -/
  code : Sc → Kind → List Node → T → Prop
  /-- `e?` has type `u` if `e` has type `t` and errors are returned from code of type `q`. -/
  question : (t q u : T) → Prop

/-- What an expression sees. -/
structure Here (T Sc : Type) where
  /-- The type of the scrutinee, for arms. -/
  scrut : T
  scope : Sc
  /-- The scope of what follows, for statements and conditions. -/
  next : Option Sc

/-- What surrounds an expression. -/
structure Around (T Sc : Type) where
  /-- The enclosing loops and labelled blocks, innermost first: the label, whether it is a loop, and what is
  expected of the values of its `break`s. -/
  targets : List (Option String × Bool × Want T)
  /-- What is expected of the values of `return`s. -/
  ret : Want T
  /-- The type of the enclosing `try` block, if any. -/
  tries : Option T
  here : Here T Sc

/-- A node has a type that is up to expectations. -/
abbrev Judge (T Sc : Type) := Around T Sc → Want T → Prop

/-- The generated enum: its name, its type, and the types of the payloads of its variants. -/
structure Generated (T : Type) where
  name : Ident
  type : T
  payload : Ident → T → Prop

variable {T Sc : Type}

/-- The expectations of the target of a `break` with the given label. -/
def findTarget : List (Option String × Bool × Want T) → Option String → Option (Want T)
  | [], _ => none
  | (_, isLoop, u) :: ts, none => if isLoop then some u else findTarget ts none
  | (l, _, u) :: ts, some b => if l = some b then some u else findTarget ts (some b)

/-- Inside a loop or labelled block. -/
def Around.enter (Γ : Around T Sc) (l : Option String) (isLoop : Bool) (u : Want T) : Around T Sc :=
  { Γ with targets := (l, isLoop, u) :: Γ.targets }

/-- The type of the code from which `?` returns. -/
def Around.answer (Γ : Around T Sc) : Option T :=
  match Γ.tries, Γ.ret with
  | some t, _ => some t
  | none, .is t => some t
  | none, _ => none

/-- For a `match` on a value of this type. -/
def Around.on (Γ : Around T Sc) (t : T) : Around T Sc := { Γ with here := { Γ.here with scrut := t } }

/-- In this scope. -/
def Around.within (Γ : Around T Sc) (s : Sc) : Around T Sc := { Γ with here := { Γ.here with scope := s } }

/-- Where this is the scope of what follows. -/
def Around.before (Γ : Around T Sc) (s : Sc) : Around T Sc := { Γ with here := { Γ.here with next := some s } }

/-- Where nothing follows. -/
def Around.inside (Γ : Around T Sc) : Around T Sc := { Γ with here := { Γ.here with next := none } }

/-- This is the scope of what follows, if something does. -/
def Around.leaves (Γ : Around T Sc) (s : Sc) : Prop := ∀ s', Γ.here.next = some s' → s' = s

/-- Nodes whose bindings are visible to what follows. -/
def binds : Kind → Bool
  | .sLocal _ | .eLet _ => true
  | .eBinary op => op == "&&"
  | _ => false

/-- All other nodes leave the scope as it is. -/
def confine (k : Kind) (d : Judge T Sc) : Judge T Sc := fun Γ w =>
  if binds k then d Γ w else Γ.leaves Γ.here.scope ∧ d Γ.inside w

namespace TypeRules

variable (R : Rules T Sc)

/-- A branch: if nothing is expected, it has a type of its own. -/
def each (d : Judge T Sc) : Judge T Sc := fun Γ w =>
  match w with
  | .free => ∃ t, d Γ (.is t)
  | w => d Γ w

def kid (ds : List (Judge T Sc)) (i : Nat) : Judge T Sc :=
  match ds[i]? with
  | some d => d
  | none => fun _ _ => False

/-- A block: its type is that of the last statement. -/
def stmts : List (Judge T Sc) → Judge T Sc
  | [], _, w => w.accepts R.unit
  | [d], Γ, w => d Γ w
  | d :: d' :: ds, Γ, w => ∃ s, d (Γ.before s) (.is R.unit) ∧ stmts (d' :: ds) (Γ.within s) w

/-- The nodes have these types. -/
def kinds : List (Judge T Sc) → Around T Sc → List T → Prop
  | [], _, [] => True
  | d :: ds, Γ, t :: ts => d Γ (.is t) ∧ kinds ds Γ ts
  | _, _, _ => False

/-- Any other node. -/
def other (k : Kind) (ds : List (Judge T Sc)) : Judge T Sc := fun Γ w =>
  ∃ ts, kinds ds Γ ts ∧ w.holds (R.node Γ.here.scope k ts)

/-- Code that is not run on the spot. -/
def freeze (k : Kind) (ks : List Node) : Judge T Sc := fun Γ w =>
  ∃ u, R.code Γ.here.scope k (noAttrsL ks) u ∧ w.accepts u

/-- The variant whose constructor the path is. -/
def variantOf (en : Ident) : Kind → Option Ident
  | .ePath false ⟨false, [⟨e, none⟩, ⟨x, none⟩]⟩ => if e = en then some x else none
  | _ => none

/-- The variant that is constructed by a call with these kids. -/
def constructed (en : Ident) : List Node → Option Ident
  | [c, _] => variantOf en c.kind
  | _ => none

/-- The value of a `break` or `return`. -/
def value (ds : List (Judge T Sc)) (Γ : Around T Sc) (u : Want T) : Prop :=
  if ds.isEmpty then u.accepts R.unit else each (kid ds 0) Γ u

def isIf : Option Node → Bool
  | some (.mk .eIf _ _) => true
  | _ => false

/-- Whether a node has a type that is up to expectations, given the same for its kids.  (Constructors of the
generated enum have a type only where they are called.) -/
def node (G : Generated T) (k : Kind) (ks : List Node) (ds : List (Judge T Sc)) : Judge T Sc :=
  fun Γ w =>
    match k with
    | .block | .eUnsafe | .eConst | .eBlock none => stmts R ds Γ w
    | .eBlock (some l) => stmts R ds (Γ.enter (some l) false w) w
    | .sExpr true => kid ds 0 Γ .never ∨ (∃ t, kid ds 0 Γ (.is t)) ∧ w.accepts R.unit
    | .sExpr false | .eParen | .eGroup => kid ds 0 Γ w
    | .sLocal p =>
      ∃ t s, R.lets Γ.here.scope p t s ∧ Γ.leaves s ∧
      match ds with
      | [] => w.accepts R.unit
      | d :: els => d Γ.inside (.is t) ∧ (∀ e ∈ els, e Γ.inside .never) ∧ (d Γ.inside .never ∨ w.accepts R.unit)
    | .eLet p => ∃ t s, kid ds 0 Γ.inside (.is t) ∧ R.pat Γ.here.scope p t s ∧ Γ.leaves s ∧ w.accepts R.bool
    | .eBinary op =>
      if op == "&&" then
        ∃ s, kid ds 0 (Γ.before s) (.is R.bool) ∧ kid ds 1 (Γ.within s) (.is R.bool) ∧ w.accepts R.bool
      else other R (.eBinary op) ds Γ w
    | .sItem _ => w.accepts R.unit
    | .eMatch => ∃ t, kid ds 0 Γ (.is t) ∧ ∀ d ∈ ds.tail, each d (Γ.on t) w
    | .arm p =>
      ∃ s, R.pat Γ.here.scope p Γ.here.scrut s ∧
      match ds with
      | [d] => d (Γ.within s) w
      | [g, d] => ∃ s', g ((Γ.within s).before s') (.is R.bool) ∧ d (Γ.within s') w
      | _ => False
    | .eIf =>
      ∃ s, kid ds 0 (Γ.before s) (.is R.bool) ∧
      match ds with
      | [_, a] => a (Γ.within s) (.is R.unit) ∧ w.accepts R.unit
      | [_, a, b] => each a (Γ.within s) w ∧ if isIf ks[2]? then b Γ w else each b Γ w
      | _ => False
    | .eLoop l => kid ds 0 (Γ.enter l true w) (.is R.unit)
    | .eWhile l =>
      ∃ s, kid ds 0 ((Γ.enter l true (.is R.unit)).before s) (.is R.bool) ∧
      kid ds 1 ((Γ.enter l true (.is R.unit)).within s) (.is R.unit) ∧ w.accepts R.unit
    | .eForLoop l p =>
      ∃ t s, kid ds 0 Γ (.is t) ∧ R.iter Γ.here.scope p t s ∧
      kid ds 1 ((Γ.enter l true (.is R.unit)).within s) (.is R.unit) ∧ w.accepts R.unit
    | .eBreak l => ∃ u, findTarget Γ.targets l = some u ∧ value R ds Γ u
    | .eContinue _ => True
    | .eReturn => value R ds Γ Γ.ret
    | .eTry => ∃ t q, kid ds 0 Γ (.is t) ∧ Γ.answer = some q ∧ w.holds (R.question t q)
    | .eTryBlock => ∃ t u, stmts R ds { Γ with tries := some u } (.is t) ∧ R.node Γ.here.scope .eTryBlock [t] u ∧ w.accepts u
    | .eMacro p t => if Eval.panics p then True else freeze R (.eMacro p t) ks Γ w
    | .sMacro p t => if Eval.panics p then True else freeze R (.sMacro p t) ks Γ w
    | .eClosure i => freeze R (.eClosure i) ks Γ w
    | .eAsync => freeze R .eAsync ks Γ w
    | .eVerbatim t => freeze R (.eVerbatim t) ks Γ w
    | .eTuple => if ds.isEmpty then w.accepts R.unit else other R .eTuple ds Γ w
    | .ePath q p => if (variantOf G.name (.ePath q p)).isSome then False else other R (.ePath q p) ds Γ w
    | .eCall =>
      match constructed G.name ks with
      | some x => ∃ t, kid ds 1 Γ (.is t) ∧ G.payload x t ∧ w.accepts G.type
      | none => other R .eCall ds Γ w
    | k => other R k ds Γ w

end TypeRules

mutual
/-- The node has a type that is up to expectations. -/
def typed (R : Rules T Sc) (G : Generated T) : Node → Judge T Sc
  | .mk k _ ks => confine k (TypeRules.node R G k ks (typedL R G ks))
def typedL (R : Rules T Sc) (G : Generated T) : List Node → List (Judge T Sc)
  | [] => []
  | n :: ns => typed R G n :: typedL R G ns
end

/-- `None` and `Err(..)` do not determine the type of the value that they lack: `None?` and `Err(..)?` have every type
if they have one. -/
structure Infers (R : Rules T Sc) : Prop where
  none : ∀ s p ts t q u, isOneOf [["None"], ["std", "option", "Option", "None"], ["core", "option", "Option", "None"]] p →
    R.node s (.ePath false p) ts t → R.question t q u →
    ∀ u', ∃ t', R.node s (.ePath false p) ts t' ∧ R.question t' q u'
  err : ∀ s p ts f a t q u, isOneOf [["Err"], ["std", "result", "Result", "Err"], ["core", "result", "Result", "Err"]] p →
    R.node s (.ePath false p) ts f → R.node s .eCall [f, a] t → R.question t q u →
    ∀ u', ∃ f' t', R.node s (.ePath false p) ts f' ∧ R.node s .eCall [f', a] t' ∧ R.question t' q u'

mutual
/-- The expression syntactically diverges, and not because of a `None?` or `Err(..)?`, which have a type. -/
def ends (m : String) : Node → Bool
  | .mk k _ ks =>
    match k, ks with
    | .eBlock _, ks | .eUnsafe, ks => endsLast m ks
    | .eBreak _, _ | .eContinue _, _ | .eReturn, _ => true
    | .eMacro p _, _ => divergingMacro m p
    | .eMatch, _ :: arms => endsArms m arms
    | .eParen, [e] => ends m e
    | _, _ => false
def endsLast (m : String) : List Node → Bool
  | [] => false
  | [.mk (.sExpr _) _ [e]] => ends m e
  | [.mk (.sLocal _) _ (e :: _)] => ends m e
  | [.mk (.sMacro p _) _ _] => divergingMacro m p
  | [_] => false
  | _ :: s :: ss => endsLast m (s :: ss)
def endsArms (m : String) : List Node → Bool
  | [] => true
  | .mk (.arm _) _ [b] :: ns => ends m b && endsArms m ns
  | .mk (.arm _) _ [_, b] :: ns => ends m b && endsArms m ns
  | _ :: _ => false
end

/-- A statement that counts as diverging because of a `None?` or `Err(..)?`, although it has a type. -/
def fails (m : String) : Kind → List Node → Bool
  | .sExpr true, e :: _ | .sLocal _, e :: _ => diverges m e && !ends m e
  | _, _ => false

/-- A method call on an expression that counts as diverging. -/
def callsOn (m : String) : Kind → List Node → Bool
  | .eMethodCall _, e :: _ => diverges m e
  | _, _ => false

mutual
/-- No method is called on an expression that counts as diverging, and no statement counts as diverging because of
`None?` or `Err(..)?`. -/
def calm (m : String) : Node → Bool
  | .mk k _ ks => !callsOn m k ks && !fails m k ks && (hidesCode k || calmL m ks)
def calmL (m : String) : List Node → Bool
  | [] => true
  | n :: ns => calm m n && calmL m ns
end

end AutoEnums.Spec
