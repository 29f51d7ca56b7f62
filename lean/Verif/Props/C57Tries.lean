import Verif.Lemmas.TypingTry
import Verif.Props.C57

/-! # C57 and C66 in the mode that desugars `?` -/

namespace AutoEnums

open Spec

/-- C57 in the mode that desugars `?`, for code without `#[never]` on `?`, `#[nested]` and `try` blocks: if the code
in a function that returns `Q`, which is a `Result` whose errors have the type of the enum, is well typed, then the
expansion has the same type, with one type for the payload of each variant, by rules that do not know `?`.  How the
types of the errors of `?` are related to that of the errors of `Q` is up to the rules for the code before: all that
`KnowsResults` asks for is that what `?` is applied to is a `Result`. -/
theorem C57_tries_partial {T Sc : Type} (R : Rules T Sc) (E Q : T) (hR : KnowsResults R E Q) (env : Env)
    (traits : List Path) (en : Ident) (m : String) (n out : Node) (h : Accepted env traits en m n out)
    (hs : Simple en m n) (ht : (jobOf en m n).tries = true) (hc : askable m (startOf n) = true)
    (Γ : Around T Sc) (hn : Γ.here.next = none) (hret : Γ.ret = .is Q) (htr : Γ.tries = none) (w : Want T)
    (hty : typedIn R ⟨en, E, fun _ _ => False⟩ m (startOf n) Γ w) :
    ∃ σ : Ident → T, typed R.withoutQuestions ⟨en, E, fun x t => t = σ x⟩ (counterpart n out) Γ w :=
  typed_out_tries hR h hs ht hc hn hret htr hty

/-- C66 in the mode that desugars `?`, with the limits of `C57_tries_partial`: if the expansion is well typed by rules
that do not know `?`, so was the code before, by rules that apply `?` to whatever can be matched with `Ok(val)`. -/
theorem C66_tries_partial {T Sc : Type} (R : Rules T Sc) (E Q : T) (hR : DemandsResults R Q) (P : Ident → T → Prop)
    (env : Env) (traits : List Path) (en : Ident) (m : String) (n out : Node) (h : Accepted env traits en m n out)
    (hs : Simple en m n) (ht : (jobOf en m n).tries = true) (hc : askable m (startOf n) = true)
    (Γ : Around T Sc) (hn : Γ.here.next = none) (hret : Γ.ret = .is Q) (htr : Γ.tries = none) (w : Want T)
    (hty : typed R.withoutQuestions ⟨en, E, P⟩ (counterpart n out) Γ w) :
    typedIn R ⟨en, E, fun _ _ => False⟩ m (startOf n) Γ w :=
  typed_source_tries hR h hs ht hc P hn hret htr hty

/-- Both: the expansion has a type, for some choice of one payload type for each variant, exactly if the code before
has it. -/
theorem C66_tries_exact_partial {T Sc : Type} (R : Rules T Sc) (E Q : T) (hR : KnowsResults R E Q)
    (hR' : DemandsResults R Q) (env : Env) (traits : List Path) (en : Ident) (m : String) (n out : Node)
    (h : Accepted env traits en m n out) (hs : Simple en m n) (ht : (jobOf en m n).tries = true)
    (hc : askable m (startOf n) = true) (Γ : Around T Sc) (hn : Γ.here.next = none) (hret : Γ.ret = .is Q)
    (htr : Γ.tries = none) (w : Want T) :
    (∃ σ : Ident → T, typed R.withoutQuestions ⟨en, E, fun x t => t = σ x⟩ (counterpart n out) Γ w) ↔
      typedIn R ⟨en, E, fun _ _ => False⟩ m (startOf n) Γ w :=
  ⟨fun ⟨_, hty⟩ => C66_tries_partial R E Q hR' _ env traits en m n out h hs ht hc Γ hn hret htr w hty,
    C57_tries_partial R E Q hR env traits en m n out h hs ht hc Γ hn hret htr w⟩

namespace Ex

/-- Types. -/
inductive Ty where
  | named (s : String)
  | result (ok err : Ty)
  deriving DecidableEq

/-- Rules by which variables have the types they have in the scope, `Err(e)` is a `Result`, and `?` turns `Result`s
with any errors into what they contain. -/
def resultRules : Rules Ty (List (String × Ty)) where
  unit := .named "()"
  bool := .named "bool"
  node s k ts u :=
    match k with
    | .eLit x => u = .named x
    | .ePath false ⟨false, [⟨x, none⟩]⟩ => s.lookup x = some u
    | .ePath false p => p = errPath ∧ u = .named "Err"
    | .eCall => ∃ a e, ts = [.named "Err", e] ∧ u = .result a e
    | _ => False
  pat s p t s' := ∃ a e, t = .result a e ∧
    (p = "::core::result::Result::Ok(val)" ∧ s' = ("val", a) :: s ∨
      p = "::core::result::Result::Err(err)" ∧ s' = ("err", e) :: s)
  lets s p t s' := ∃ x, p = .plain x ∧ s' = (x, t) :: s
  iter _ _ _ _ := False
  code _ _ _ _ := False
  question t q u := ∃ e a' e', t = .result u e ∧ q = .result a' e'

theorem resultRules_know (a E : Ty) : KnowsResults resultRules E (.result a E) where
  ok s t u := by
    rintro ⟨e, a', e', rfl, -⟩
    refine ⟨("val", u) :: s, ⟨u, e, rfl, .inl ⟨rfl, rfl⟩⟩, ?_⟩
    rintro _ ⟨_, _, _, h, -⟩
    cases h
    rfl
  err s t u := by
    rintro ⟨e, a', e', rfl, -⟩
    exact ⟨("err", e) :: s, e, .named "Err", ⟨u, e, rfl, .inr ⟨rfl, rfl⟩⟩, rfl, ⟨rfl, rfl⟩, a, E, rfl, rfl⟩

theorem resultRules_demand (a E : Ty) : DemandsResults resultRules (.result a E) where
  ok s s' t u := by
    rintro ⟨a, e, rfl, ⟨-, rfl⟩ | ⟨h, -⟩⟩ h1
    · cases h1
      exact ⟨_, _, _, rfl, rfl⟩
    · exact absurd h (by decide)

/-- `fn f() -> Result<T, impl Iterator> { let v = x?; loop { y?; break }; let e = marker!(1); if c { return w; }; v }` -/
def askFnIn : Node := .mk (.iFn "f" (some (.mk (.path false (.ofIdents ["Result"]) (some false))
  [.mk .argType [.mk (.other "T") []], .mk .argType [implIter]]))) [] [.mk .block []
  [.mk (.sLocal (.plain "v")) [] [.mk .eTry [] [var "x"]],
   semiS (.mk (.eLoop none) [] [.mk .block [] [semiS (.mk .eTry [] [var "y"]), semiS (.mk (.eBreak none) [] [])]]),
   .mk (.sLocal (.plain "e")) [] [markerOf (lit "1")],
   semiS (.mk .eIf [] [var "c", .mk .block [] [semiS (.mk .eReturn [] [var "w"])]]),
   tailS (var "v")]]

/-- In the function, where `x` and `y` have errors of different types. -/
def inAskFn : Around Ty (List (String × Ty)) := ⟨[], .is (.result (.named "T") (.named "enum")), none, ⟨.named "()",
  [("x", .result (.result (.named "T") (.named "enum")) (.named "io")), ("y", .result (.named "int") (.named "fmt")),
   ("c", .named "bool"), ("w", .result (.named "T") (.named "enum"))], none⟩⟩

/-- The hypotheses are met by a function with two `?`s that fail with errors of different types, one of which has
a value that is used later, a marker and a `return`; it has no type without the rule for `?`. -/
example : ∃ out, Accepted env [.ofIdents ["Iterator"]] "__Enum5" "marker" askFnIn out ∧
    Simple "__Enum5" "marker" askFnIn ∧ (jobOf "__Enum5" "marker" askFnIn).tries = true ∧
    askable "marker" (startOf askFnIn) = true ∧
    KnowsResults resultRules (.named "enum") (.result (.named "T") (.named "enum")) ∧
    DemandsResults resultRules (.result (.named "T") (.named "enum")) ∧
    typedIn resultRules ⟨"__Enum5", .named "enum", fun _ _ => False⟩ "marker" (startOf askFnIn) inAskFn
      (.is (.result (.named "T") (.named "enum"))) ∧
    ¬ typedIn resultRules.withoutQuestions ⟨"__Enum5", .named "enum", fun _ _ => False⟩ "marker" (startOf askFnIn)
      inAskFn (.is (.result (.named "T") (.named "enum"))) := by
  have h := Ex.of_check (o := autoEnum Ex.env 20 5 Ex.iterator (.stmt askFnIn))
    (p := fun _ => true) (by decide +kernel)
  obtain ⟨out, h1, -⟩ := h
  refine ⟨out, Ex.accepted_stmt rfl h1, ⟨by decide +kernel, by decide +kernel, by decide +kernel⟩,
    by decide +kernel, by decide +kernel, resultRules_know _ _, resultRules_demand _ _, ?_, ?_⟩
  · simp only [askFnIn, inAskFn, resultRules]
    typing
    exact ⟨_, ⟨_, rfl, _, rfl, rfl, _, _, rfl⟩, _, ⟨rfl, _, .inr ⟨_, _, rfl, _, rfl, ⟨_, rfl⟩, _, _, rfl⟩, .inl rfl⟩, _,
      ⟨rfl, _, _, ⟨rfl, rfl⟩, .inl rfl, rfl⟩, rfl⟩
  · simp only [askFnIn, inAskFn, resultRules, Rules.withoutQuestions]
    typing

end Ex

end AutoEnums
