import Verif.Spec.TypingMark
import Verif.Spec.EvalTry

/-!
# Specification vocabulary: the types of desugared `?`

What the comparison of types needs in the mode that desugars `?`.  Nothing in this file refers to the model of the
code.
-/

namespace AutoEnums.Spec

variable {T Sc : Type}

/-- `::core::result::Result::Err` -/
def errPath : Path := ⟨true, [⟨"core", none⟩, ⟨"result", none⟩, ⟨"Result", none⟩, ⟨"Err", none⟩]⟩

/-- The rules know `Result`, and that `Q` is a `Result` whose errors have type `E`: whatever `?` can be applied to is
matched by the patterns `Ok(val)` and `Err(err)`; `val` has the type that `?` has, `err` has some type, and `Err`
applied to something of type `E` has type `Q`. -/
structure KnowsResults (R : Rules T Sc) (E Q : T) : Prop where
  ok : ∀ s t u, R.question t Q u →
    ∃ s', R.pat s "::core::result::Result::Ok(val)" t s' ∧ ∀ u, R.question t Q u → R.node s' (variable_ "val") [] u
  err : ∀ s t u, R.question t Q u →
    ∃ s' x f, R.pat s "::core::result::Result::Err(err)" t s' ∧ R.node s' (variable_ "err") [] x ∧
      R.node s' (.ePath false errPath) [] f ∧ R.node s' .eCall [f, E] Q

/-- The converse: `?` can be applied to whatever is matched by the pattern `Ok(val)`, and has the type of `val`. -/
structure DemandsResults (R : Rules T Sc) (Q : T) : Prop where
  ok : ∀ s s' t u, R.pat s "::core::result::Result::Ok(val)" t s' → R.node s' (variable_ "val") [] u →
    R.question t Q u

/-- The same rules without `?`. -/
def Rules.withoutQuestions (R : Rules T Sc) : Rules T Sc := { R with question := fun _ _ _ => False }

mutual
/-- No `?` is annotated `#[never]` or applied to a marker; there are no `try` blocks and no `#[nested]`; markers have
one argument, which contains no `?`; closures and `async` blocks contain no markers, and `async` blocks no `?`. -/
def askable (m : String) : Node → Bool
  | .mk k as ks =>
    !(carries k && marked "nested" as) && k != .eTryBlock &&
    (k != .eTry || (!marked "never" as && ks.length == 1 && !isCallOf m ks)) &&
    (!callsMacro m k || (ks.length == 1 && !asksL ks)) &&
    (!isFrozen k || ((visibleL ks).all fun l => !callsMacro m l.1 && (k != .eAsync || l.1 != .eTry))) &&
    (hidesCode k || isFrozen k || askableL m ks)
def askableL (m : String) : List Node → Bool
  | [] => true
  | n :: ns => askable m n && askableL m ns
end

end AutoEnums.Spec
