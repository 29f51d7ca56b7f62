import Verif.Lemmas.TypingRun
import Verif.ExamplesAccepted
import Verif.ExamplesRun

/-! # C57: the expansion has the type of the generated enum -/

namespace AutoEnums

open Spec

/-- C57 for code without inner attributes, described syntactically: if the code in which wrapping
starts is well typed apart from the fact that the values of its branches (and of the `return`s that are wrapped, the
arguments of markers and the branches of expressions annotated `#[nested]`) may have any types, and what is annotated
`#[never]` has no value, then the expansion
has the type of the enum, with one type for the payload of each variant.  The rest of the typing rules, and the code
around, are arbitrary, except that the type of `None?` and `Err(..)?` is inferred (`Infers`). -/
theorem C57_partial {T Sc : Type} (R : Rules T Sc) (hR : Infers R) (E : T) (env : Env) (traits : List Path)
    (en : Ident) (m : String) (n out : Node) (h : Accepted env traits en m n out) (hs : Simple en m n)
    (hb : (jobOf en m n).branches = true)
    (hc : typable (jobOf en m n) .result (startOf n) = true)
    (Γ : Around T Sc) (hret : (jobOf en m n).returns = true → Γ.ret = .free)
    (hty : typedAs true R ⟨en, E, fun _ _ => False⟩ m (startOf n) Γ .free) :
    ∃ σ : Ident → T, typed R ⟨en, E, fun x t => t = σ x⟩ (counterpart n out)
      { Γ with ret := if (jobOf en m n).returns then .is E else Γ.ret } (.is E) :=
  typed_out hR h hs hb hc E hret hty

/-- Without markers, `#[nested]` and `#[never]`, the rules for the code before are those for the code after. -/
theorem C57_unmarked_partial {T Sc : Type} (R : Rules T Sc) (hR : Infers R) (E : T) (env : Env) (traits : List Path)
    (en : Ident) (m : String) (n out : Node) (h : Accepted env traits en m n out) (hs : Simple en m n)
    (hb : (jobOf en m n).branches = true)
    (hc : typable (jobOf en m n) .result (startOf n) = true)
    (hm : ∀ l ∈ visible (startOf n), callsMacro m l.1 = false) (hn : hasNested [startOf n] = false)
    (hv : ∀ l ∈ visible (startOf n), carries l.1 = true → marked "never" l.2 = false)
    (Γ : Around T Sc) (hret : (jobOf en m n).returns = true → Γ.ret = .free)
    (hty : typed R ⟨en, E, fun _ _ => False⟩ (startOf n) Γ .free) :
    ∃ σ : Ident → T, typed R ⟨en, E, fun x t => t = σ x⟩ (counterpart n out)
      { Γ with ret := if (jobOf en m n).returns then .is E else Γ.ret } (.is E) :=
  C57_partial R hR E env traits en m n out h hs hb hc Γ hret (by
    rw [typedAs_plain _ hm hn fun _ => hv]; exact hty)

/-- Rules by which every literal has a type of its own, `c` is a `bool`, methods return strings, and everything
else but control flow is a unit. -/
def Ex.rules : Rules String Unit where
  unit := "()"
  bool := "bool"
  node _ k _ u :=
    match k with
    | .eLit s => u = "type of " ++ s
    | .ePath _ p => u = if p = .ofIdents ["c"] then "bool" else "()"
    | .eMethodCall _ => u = "String"
    | _ => False
  pat _ _ _ _ := True
  lets _ _ _ _ := True
  iter _ _ _ _ := True
  code _ _ _ _ := False
  question _ _ _ := False

/-- The same, where `y` is a `bool`, too. -/
def Ex.yRules : Rules String Unit :=
  { Ex.rules with node := fun s k ts u => Ex.rules.node s k ts u ∨ k = .ePath false (.ofIdents ["y"]) ∧ u = "bool" }

/-- No rule applies to `?`, so that these rules trivially infer the type of `Err(..)?`. -/
theorem Ex.rules_infer : Infers Ex.rules := ⟨fun _ _ _ _ _ _ _ _ h => h.elim, fun _ _ _ _ _ _ _ _ _ _ _ h => h.elim⟩

theorem Ex.yRules_infer : Infers Ex.yRules := ⟨fun _ _ _ _ _ _ _ _ h => h.elim, fun _ _ _ _ _ _ _ _ _ _ _ h => h.elim⟩

/-- Outside of loops; nothing is expected of `return`s. -/
def Ex.outside : Around String Unit := ⟨[], .free, none, ⟨"()", (), none⟩⟩

theorem Ex.kinds_nil {T Sc : Type} {Γ : Around T Sc} {ts : List T} : TypeRules.kinds [] Γ ts ↔ ts = [] := by
  cases ts <;> simp [TypeRules.kinds]

theorem Ex.kinds_cons {T Sc : Type} {Γ : Around T Sc} {d : Judge T Sc} {ds : List (Judge T Sc)}
    {ts : List T} :
    TypeRules.kinds (d :: ds) Γ ts ↔ ∃ t us, ts = t :: us ∧ d Γ (.is t) ∧ TypeRules.kinds ds Γ us := by
  cases ts with
  | nil => simp [TypeRules.kinds]
  | cons t us =>
    constructor
    · exact fun h => ⟨t, us, rfl, h⟩
    · rintro ⟨_, _, h, h1⟩
      cases h
      exact h1

/-- Evaluate the typing rules. -/
macro "typing" : tactic => `(tactic| simp [typedIn, typedInL, typedAs, typedAsL, onNever, pledges, Around.shut, Want.shut, Want.holds, onNested, onNestedKids, nestedExpr, callsMacro,
  isExpression, marked, named, Ex.markerOf, Ex.helper, startOf, targetOf, bodyOf, counterpart, bodyIn, Ex.arm, Ex.lit, Ex.var,
  Ex.v, exprCall, enumIdent, variantIdent, exprBlock, semiS, tailS, pathE, typed, typedL, TypeRules.node,
  TypeRules.stmts, confine, binds, Around.leaves, Around.inside,
  Around.within, Around.before, Around.on, TypeRules.kid, TypeRules.each, TypeRules.value, TypeRules.other, TypeRules.isIf,
  Ex.kinds_nil, Ex.kinds_cons, TypeRules.variantOf, TypeRules.constructed, Node.kind, findTarget, Around.enter,
  Ex.rules, Ex.yRules, Ex.outside, Want.accepts, Path.ofIdents,
  show Eval.panics ⟨false, [⟨"panic", none⟩]⟩ = true from rfl])

/-- The function `Ex.fnIn` meets the hypotheses: the values of its `return` and of its two arms have three
different types. -/
example : Accepted Ex.env [.ofIdents ["Iterator"]] "__Enum5" "marker" Ex.fnIn Ex.fnOut ∧
    Simple "__Enum5" "marker" Ex.fnIn ∧ (jobOf "__Enum5" "marker" Ex.fnIn).branches = true ∧
    (jobOf "__Enum5" "marker" Ex.fnIn).returns = true ∧
    typable (jobOf "__Enum5" "marker" Ex.fnIn) .result (startOf Ex.fnIn) = true ∧
    (∀ l ∈ visible (startOf Ex.fnIn), callsMacro "marker" l.1 = false) ∧ hasNested [startOf Ex.fnIn] = false ∧
    (∀ l ∈ visible (startOf Ex.fnIn), carries l.1 = true → marked "never" l.2 = false) ∧
    typed Ex.rules ⟨"__Enum5", "enum", fun _ _ => False⟩ (startOf Ex.fnIn) Ex.outside .free ∧
    ∀ t, ¬ typed Ex.rules ⟨"__Enum5", "enum", fun _ _ => False⟩ (startOf Ex.fnIn) Ex.outside (.is t) := by
  refine ⟨Ex.fn_accepted, Ex.fn_simple, by decide +kernel, by decide +kernel, by decide +kernel,
    by decide +kernel, by decide +kernel, by decide +kernel, ?_, ?_⟩
  · simp only [Ex.fnIn, Ex.fnBody]
    typing
  · intro t
    simp only [Ex.fnIn, Ex.fnBody]
    typing
    rintro rfl
    decide

/-- The function `Ex.markedIn` with markers and `#[nested]` meets the hypotheses of `C57_partial`: its seven values
have seven different types. -/
example : ∃ out, Accepted Ex.env [.ofIdents ["Iterator"]] "__Enum5" "marker" Ex.markedIn out ∧
    Simple "__Enum5" "marker" Ex.markedIn ∧ (jobOf "__Enum5" "marker" Ex.markedIn).branches = true ∧
    (jobOf "__Enum5" "marker" Ex.markedIn).returns = true ∧
    typable (jobOf "__Enum5" "marker" Ex.markedIn) .result (startOf Ex.markedIn) = true ∧
    typedAs true Ex.yRules ⟨"__Enum5", "enum", fun _ _ => False⟩ "marker" (startOf Ex.markedIn) Ex.outside .free ∧
    ∀ t, ¬ typed Ex.yRules ⟨"__Enum5", "enum", fun _ _ => False⟩ (startOf Ex.markedIn) Ex.outside (.is t) := by
  have h := Ex.of_check (o := autoEnum Ex.env 20 5 Ex.iterator (.stmt Ex.markedIn))
    (p := fun _ => true) (by decide +kernel)
  obtain ⟨out, h1, -⟩ := h
  refine ⟨out, Ex.accepted_stmt rfl h1, ⟨by decide +kernel, by decide +kernel, by decide +kernel⟩,
    by decide +kernel, by decide +kernel, by decide +kernel, ?_, ?_⟩
  · simp only [Ex.markedIn]
    typing
  · intro t
    simp only [Ex.markedIn]
    typing
    intro _ _ _ _ _ _ h3 h4
    exact absurd (h3.symm.trans h4) (by decide)

/-- Rules by which a variable has the type it has in the scope, and literals are as before. -/
def Ex.scopeRules : Rules String (List (String × String)) where
  unit := "()"
  bool := "bool"
  node s k _ u :=
    match k with
    | .eLit x => u = "type of " ++ x
    | .ePath false ⟨false, [⟨x, none⟩]⟩ => s.lookup x = some u
    | _ => False
  pat s p t s' := s' = if p = "y" then (p, t) :: s else s
  lets s p t s' := ∃ x, p = .plain x ∧ s' = (x, t) :: s
  iter _ _ _ _ := False
  code _ _ _ _ := False
  question _ _ _ := False

/-- `{ let x = e; match c { 0 => x, y => y } }` -/
def Ex.scopeIn (x : String) : Node := exprBlock [
  .mk (.sLocal (.plain x)) [] [Ex.lit "1"],
  tailS (.mk .eMatch [] [Ex.var "c", Ex.arm "0" (Ex.var "x"), Ex.arm "y" (Ex.var "y")])]

/-- Outside of loops, with a variable in scope. -/
def Ex.inScope : Around String (List (String × String)) := ⟨[], .free, none, ⟨"()", [("c", "int")], none⟩⟩

/-- The hypotheses are met by code that uses variables it binds, with rules that look them up in scopes. -/
example : ∃ out, Accepted Ex.env [.ofIdents ["Iterator"]] "__Enum5" "marker" (Ex.scopeIn "x") out ∧
    Simple "__Enum5" "marker" (Ex.scopeIn "x") ∧ (jobOf "__Enum5" "marker" (Ex.scopeIn "x")).branches = true ∧
    typable (jobOf "__Enum5" "marker" (Ex.scopeIn "x")) .result (startOf (Ex.scopeIn "x")) = true ∧
    typedAs true Ex.scopeRules ⟨"__Enum5", "enum", fun _ _ => False⟩ "marker" (startOf (Ex.scopeIn "x")) Ex.inScope .free := by
  have h := Ex.of_check (o := autoEnum Ex.env 20 5 Ex.iterator (.expr (Ex.scopeIn "x")))
    (p := fun _ => true) (by decide +kernel)
  obtain ⟨out, h1, -⟩ := h
  refine ⟨out, Ex.accepted_expr rfl h1, ⟨by decide +kernel, by decide +kernel, by decide +kernel⟩,
    by decide +kernel, by decide +kernel, ?_⟩
  simp only [Ex.scopeIn, Ex.inScope, Ex.scopeRules]
  typing
  exact ⟨"int", rfl⟩

/-- Rules for `?`: paths to anything but `c` have every type, calls have the type of the function called, and the
type of `e?` is that of `e`. -/
def Ex.askRules : Rules String Unit :=
  { Ex.rules with
    node := fun s k ts u =>
      match k with
      | .ePath false p => p = .ofIdents ["c"] → u = "bool"
      | .eCall => ∃ a, ts = [u, a]
      | _ => Ex.rules.node s k ts u
    question := fun t _ u => t = u }

theorem Ex.askRules_infer : Infers Ex.askRules := by
  constructor
  · intro s p ts t q u hp hn hq u'
    exact ⟨u', fun h => by subst h; exact absurd hp (by decide), rfl⟩
  · intro s p ts f a t q u hp hn hc hq u'
    exact ⟨u', u', fun h => by subst h; exact absurd hp (by decide), ⟨a, rfl⟩, rfl⟩

/-- `match x { 0 => 1, 1 => 2, _ => b }` -/
def Ex.askIn (b : Node) : Node := .mk .eMatch [] [Ex.var "x", Ex.arm "0" (Ex.lit "1"), Ex.arm "1" (Ex.lit "2"),
  Ex.arm "_" b]

/-- `Err(3)?` -/
def Ex.errAsk : Node := .mk .eTry [] [.mk .eCall [] [Ex.var "Err", Ex.lit "3"]]

/-- Inside a function that returns a `Result`. -/
def Ex.inResult : Around String Unit := { Ex.outside with ret := .is "Result" }

/-- The hypotheses are met by code with an arm `Err(3)?`, which is not wrapped and has every type. -/
example : ∃ out, Accepted Ex.env [.ofIdents ["Iterator"]] "__Enum5" "marker" (Ex.askIn Ex.errAsk) out ∧
    Simple "__Enum5" "marker" (Ex.askIn Ex.errAsk) ∧ (jobOf "__Enum5" "marker" (Ex.askIn Ex.errAsk)).branches = true ∧
    typable (jobOf "__Enum5" "marker" (Ex.askIn Ex.errAsk)) .result (startOf (Ex.askIn Ex.errAsk)) = true ∧
    typedAs true Ex.askRules ⟨"__Enum5", "enum", fun _ _ => False⟩ "marker" (startOf (Ex.askIn Ex.errAsk)) Ex.inResult .free := by
  have h := Ex.of_check (o := autoEnum Ex.env 20 5 Ex.iterator (.expr (Ex.askIn Ex.errAsk)))
    (p := fun _ => true) (by decide +kernel)
  obtain ⟨out, h1, -⟩ := h
  refine ⟨out, Ex.accepted_expr rfl h1, ⟨by decide +kernel, by decide +kernel, by decide +kernel⟩,
    by decide +kernel, by decide +kernel, ?_⟩
  simp only [Ex.askIn, Ex.errAsk, Ex.inResult, Ex.askRules]
  typing
  exact ⟨⟨"enum", _, ⟨"enum", rfl⟩, _, rfl⟩, "()", (), _, rfl⟩

/-- Rules by which calls have every type, as if all functions called returned `!`. -/
def Ex.exitRules : Rules String Unit :=
  { Ex.rules with node := fun s k ts u => Ex.rules.node s k ts u ∨ k = .eCall ∧ ts = ["()"] }

theorem Ex.exitRules_infer : Infers Ex.exitRules :=
  ⟨fun _ _ _ _ _ _ _ _ h => h.elim, fun _ _ _ _ _ _ _ _ _ _ _ h => h.elim⟩

/-- `exit()` -/
def Ex.exit (as : List Attr) : Node := .mk .eCall as [Ex.var "exit"]

/-- `{ if c { #[never] return exit(); } match x { 0 => 1, #[never] 1 => exit(), 2 => { #[never] exit(); } _ => 2 } }` -/
def Ex.exitIn : Node := .mk (.iFn "f" (some Ex.implIter)) [] [.mk .block [] [
  semiS (.mk .eIf [] [Ex.var "c", .mk .block [] [semiS (.mk .eReturn [Ex.helper "never"] [Ex.exit []])]]),
  tailS (.mk .eMatch [] [Ex.var "x", Ex.arm "0" (Ex.lit "1"), .mk (.arm "1") [Ex.helper "never"] [Ex.exit []],
    Ex.arm "2" (exprBlock [semiS (Ex.exit [Ex.helper "never"])]), Ex.arm "_" (Ex.lit "2")])]]

/-- The hypotheses are met by code with `#[never]` in front of an arm, a `return` and a statement. -/
example : ∃ out, Accepted Ex.env [.ofIdents ["Iterator"]] "__Enum5" "marker" Ex.exitIn out ∧
    Simple "__Enum5" "marker" Ex.exitIn ∧ (jobOf "__Enum5" "marker" Ex.exitIn).branches = true ∧
    (jobOf "__Enum5" "marker" Ex.exitIn).returns = true ∧
    typable (jobOf "__Enum5" "marker" Ex.exitIn) .result (startOf Ex.exitIn) = true ∧
    typedAs true Ex.exitRules ⟨"__Enum5", "enum", fun _ _ => False⟩ "marker" (startOf Ex.exitIn) Ex.outside .free := by
  have h := Ex.of_check (o := autoEnum Ex.env 20 5 Ex.iterator (.stmt Ex.exitIn))
    (p := fun _ => true) (by decide +kernel)
  obtain ⟨out, h1, -⟩ := h
  refine ⟨out, Ex.accepted_stmt rfl h1, ⟨by decide +kernel, by decide +kernel, by decide +kernel⟩,
    by decide +kernel, by decide +kernel, by decide +kernel, ?_⟩
  simp only [Ex.exitIn, Ex.exit, Ex.exitRules]
  typing

/-- `match x { 0 => 1, 1 => 2, #[never] _ => 3 }` -/
def Ex.liarIn : Node := .mk .eMatch [] [Ex.var "x", Ex.arm "0" (Ex.lit "1"), Ex.arm "1" (Ex.lit "2"),
  .mk (.arm "_") [Ex.helper "never"] [Ex.lit "3"]]

/-- `C57_partial` has to check that what is annotated `#[never]` has no value: the annotation is trusted, and if it is
wrong, the expansion has no type. -/
theorem C57_never_fails : ∃ out,
    Accepted Ex.env [.ofIdents ["Iterator"]] "__Enum5" "marker" Ex.liarIn out ∧
    Simple "__Enum5" "marker" Ex.liarIn ∧ (jobOf "__Enum5" "marker" Ex.liarIn).branches = true ∧
    typable (jobOf "__Enum5" "marker" Ex.liarIn) .result (startOf Ex.liarIn) = true ∧
    typedIn Ex.rules ⟨"__Enum5", "enum", fun _ _ => False⟩ "marker" (startOf Ex.liarIn) Ex.outside .free ∧
    ¬ typedAs true Ex.rules ⟨"__Enum5", "enum", fun _ _ => False⟩ "marker" (startOf Ex.liarIn) Ex.outside .free ∧
    ∀ P : Ident → String → Prop,
      ¬ typed Ex.rules ⟨"__Enum5", "enum", P⟩ (counterpart Ex.liarIn out) Ex.outside (.is "enum") := by
  have h := Ex.of_check (o := autoEnum Ex.env 20 5 Ex.iterator (.expr Ex.liarIn))
    (p := fun out => decide (out = exprBlock [
      .mk (.sItem (.genEnum "__Enum5" ["__Variant0", "__Variant1"]
        [("__Variant0", "__Variant0"), ("__Variant1", "__Variant1")] [.ofIdents ["Iterator"]])) [] [],
      tailS (.mk .eMatch [] [Ex.var "x", Ex.arm "0" (Ex.v 5 0 (Ex.lit "1")), Ex.arm "1" (Ex.v 5 1 (Ex.lit "2")),
        Ex.arm "_" (Ex.lit "3")])])) (by decide +kernel)
  obtain ⟨out, h1, h2⟩ := h
  refine ⟨out, Ex.accepted_expr rfl h1, ⟨by decide +kernel, by decide +kernel, by decide +kernel⟩,
    by decide +kernel, by decide +kernel, ?_, ?_, ?_⟩
  · simp only [Ex.liarIn]
    typing
  · simp only [Ex.liarIn]
    typing
    exact ⟨"", by decide⟩
  · intro P
    rw [of_decide_eq_true h2]
    simp only [Ex.liarIn]
    typing

/-- C57 fails for a block that ends with `Err(..)?;`: it counts as diverging and is not wrapped, but its type is
`()`. -/
theorem C57_question_fails : ∃ out,
    Accepted Ex.env [.ofIdents ["Iterator"]] "__Enum5" "marker" (Ex.askIn (exprBlock [semiS Ex.errAsk])) out ∧
    Simple "__Enum5" "marker" (Ex.askIn (exprBlock [semiS Ex.errAsk])) ∧
    (jobOf "__Enum5" "marker" (Ex.askIn (exprBlock [semiS Ex.errAsk]))).branches = true ∧
    typed Ex.askRules ⟨"__Enum5", "enum", fun _ _ => False⟩ (startOf (Ex.askIn (exprBlock [semiS Ex.errAsk])))
      Ex.inResult .free ∧
    ∀ P : Ident → String → Prop, ¬ typed Ex.askRules ⟨"__Enum5", "enum", P⟩
      (counterpart (Ex.askIn (exprBlock [semiS Ex.errAsk])) out) Ex.inResult (.is "enum") := by
  have h := Ex.of_check (o := autoEnum Ex.env 20 5 Ex.iterator (.expr (Ex.askIn (exprBlock [semiS Ex.errAsk]))))
    (p := fun out => decide (out = exprBlock [
      .mk (.sItem (.genEnum "__Enum5" ["__Variant0", "__Variant1"]
        [("__Variant0", "__Variant0"), ("__Variant1", "__Variant1")] [.ofIdents ["Iterator"]])) [] [],
      tailS (.mk .eMatch [] [Ex.var "x", Ex.arm "0" (Ex.v 5 0 (Ex.lit "1")), Ex.arm "1" (Ex.v 5 1 (Ex.lit "2")),
        Ex.arm "_" (exprBlock [semiS Ex.errAsk])])])) (by decide +kernel)
  obtain ⟨out, h1, h2⟩ := h
  refine ⟨out, Ex.accepted_expr rfl h1, ⟨by decide +kernel, by decide +kernel, by decide +kernel⟩,
    by decide +kernel, ?_, ?_⟩
  · simp only [Ex.askIn, Ex.errAsk, Ex.inResult, Ex.askRules]
    typing
    exact ⟨"()", _, (), .inr ⟨⟨⟨_, _, ⟨"enum", rfl⟩, _, rfl⟩, _, rfl⟩, rfl⟩⟩
  · intro P
    rw [of_decide_eq_true h2]
    simp only [Ex.askIn, Ex.errAsk, Ex.inResult, Ex.askRules]
    typing
    intro _ _ _ _ t _ _
    exact if h : t = "" then ⟨"a", by subst h; decide⟩ else ⟨"", h⟩

/-- C57 fails for a labelled block in result position: the value of a `break` out of it is not wrapped. -/
theorem C57_label_fails : ∃ out,
    Accepted Ex.env [.ofIdents ["Iterator"]] "__Enum5" "marker" Ex.blockIn out ∧
    Simple "__Enum5" "marker" Ex.blockIn ∧ (jobOf "__Enum5" "marker" Ex.blockIn).branches = true ∧
    typed Ex.rules ⟨"__Enum5", "enum", fun _ _ => False⟩ (startOf Ex.blockIn) Ex.outside .free ∧
    ∀ P : Ident → String → Prop,
      ¬ typed Ex.rules ⟨"__Enum5", "enum", P⟩ (counterpart Ex.blockIn out) Ex.outside (.is "enum") := by
  have h := Ex.of_check (o := autoEnum Ex.env 20 5 Ex.iterator (.expr Ex.blockIn))
    (p := fun out => decide (out = exprBlock [
      .mk (.sItem (.genEnum "__Enum5" ["__Variant0", "__Variant1"]
        [("__Variant0", "__Variant0"), ("__Variant1", "__Variant1")] [.ofIdents ["Iterator"]])) [] [],
      tailS (.mk (.eBlock (some "a")) []
        [semiS (.mk .eIf [] [Ex.var "c", .mk .block [] [semiS (.mk (.eBreak (some "a")) [] [Ex.lit "1"])]]),
         tailS (.mk .eMatch [] [Ex.var "x", Ex.arm "0" (Ex.v 5 0 (Ex.lit "2")),
           Ex.arm "_" (Ex.v 5 1 (Ex.lit "3"))])])])) (by decide +kernel)
  obtain ⟨out, h1, h2⟩ := h
  refine ⟨out, Ex.accepted_expr rfl h1, ⟨by decide +kernel, by decide +kernel, by decide +kernel⟩,
    by decide +kernel, ?_, ?_⟩
  · simp only [Ex.blockIn]
    typing
  · intro P
    rw [of_decide_eq_true h2]
    simp only [Ex.blockIn]
    typing

/-- `match x { 0 => 1, 1 => return.f(), _ => 2 }` -/
def Ex.methodIn : Node := .mk .eMatch [] [Ex.var "x", Ex.arm "0" (Ex.lit "1"),
  Ex.arm "1" (.mk (.eMethodCall "f") [] [.mk .eReturn [] []]), Ex.arm "_" (Ex.lit "2")]

/-- C57 fails for a method call on diverging code: the call has a type of its own, but is not wrapped. -/
theorem C57_method_fails : ∃ out,
    Accepted Ex.env [.ofIdents ["Iterator"]] "__Enum5" "marker" Ex.methodIn out ∧
    Simple "__Enum5" "marker" Ex.methodIn ∧ (jobOf "__Enum5" "marker" Ex.methodIn).branches = true ∧
    comparable (jobOf "__Enum5" "marker" Ex.methodIn) .result (startOf Ex.methodIn) = true ∧
    typed Ex.rules ⟨"__Enum5", "enum", fun _ _ => False⟩ (startOf Ex.methodIn) Ex.outside .free ∧
    ∀ P : Ident → String → Prop,
      ¬ typed Ex.rules ⟨"__Enum5", "enum", P⟩ (counterpart Ex.methodIn out) Ex.outside (.is "enum") := by
  have h := Ex.of_check (o := autoEnum Ex.env 20 5 Ex.iterator (.expr Ex.methodIn))
    (p := fun out => decide (out = exprBlock [
      .mk (.sItem (.genEnum "__Enum5" ["__Variant0", "__Variant1"]
        [("__Variant0", "__Variant0"), ("__Variant1", "__Variant1")] [.ofIdents ["Iterator"]])) [] [],
      tailS (.mk .eMatch [] [Ex.var "x", Ex.arm "0" (Ex.v 5 0 (Ex.lit "1")),
        Ex.arm "1" (.mk (.eMethodCall "f") [] [.mk .eReturn [] []]),
        Ex.arm "_" (Ex.v 5 1 (Ex.lit "2"))])])) (by decide +kernel)
  obtain ⟨out, h1, h2⟩ := h
  refine ⟨out, Ex.accepted_expr rfl h1, ⟨by decide +kernel, by decide +kernel, by decide +kernel⟩,
    by decide +kernel, by decide +kernel, ?_, ?_⟩
  · simp only [Ex.methodIn]
    typing
    exact ⟨_, "()", rfl⟩
  · intro P
    rw [of_decide_eq_true h2]
    simp only [Ex.methodIn]
    typing

end AutoEnums
