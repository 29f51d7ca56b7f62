import Verif.Lemmas.MeaningStep
import Verif.Props.C04
import Verif.ExamplesRun

/-! # C65: seen through the constructors, the expansion does what the source does -/

namespace AutoEnums

open Spec

/-- C65 for expansions in which no `?` is desugared: whatever the input contains (markers, `#[nested]`, inner
attributes, ..), if the rest of the program cannot tell a value from the same value in a variant, then it cannot
tell the expansion from the source.  From states that look the same, with scrutinees that look the same, neither
ends, or both end in the same way with values and states that look the same.  `marks` holds of the markers of all
attributes. -/
theorem C65 (env : Env) (fuel h : Nat) (toks : List Tok) (input : Input) (n out : Node)
    (hin : input = .stmt n ∨ input = .expr n) (hrun : autoEnum env fuel h toks input = .code out)
    (marks : String → Bool)
    (hM : ∀ m, MarkerOf toks m ∨ (∃ ts, InnerArgs n ts ∧ MarkerOf ts m) → marks m = true)
    (hq : questions out = questions n) {B S : Type} (M : Machine B S) (code : Code B S) (O : Observer B S)
    (hB : Blind M code O) (hX : ¬O.exits) (f : Nat) :
    O.den (meaning M code marks (f + 3) n) (meaning M code marks (f + 3) out) :=
  edit_looks hB hX (sane_permitted hM) (C04_edits env fuel h toks input n out hin hrun) hq

/-- In particular for all inputs without `?`. -/
theorem C65_plain (env : Env) (fuel h : Nat) (toks : List Tok) (input : Input) (n out : Node)
    (hin : input = .stmt n ∨ input = .expr n) (hrun : autoEnum env fuel h toks input = .code out)
    (marks : String → Bool)
    (hM : ∀ m, MarkerOf toks m ∨ (∃ ts, InnerArgs n ts ∧ MarkerOf ts m) → marks m = true)
    (hq : ∀ l ∈ labels n, l.1 ≠ .eTry) {B S : Type} (M : Machine B S) (code : Code B S) (O : Observer B S)
    (hB : Blind M code O) (hX : ¬O.exits) (f : Nat) :
    O.den (meaning M code marks (f + 3) n) (meaning M code marks (f + 3) out) := by
  have h0 : questions n = 0 := by
    rw [questions, List.countP_eq_zero]
    intro l hl
    simpa using hq l hl
  have h1 := edit_questions (C04_edits env fuel h toks input n out hin hrun)
  exact C65 env fuel h toks input n out hin hrun marks hM (by omega) M code O hB hX f

/-- C65 with `?`, for code without `try` blocks: the same holds if moreover the rest of the program cannot tell a
`?` that fails from a `return` (which is so once the function has been left), and `?` is applied to `Result`s. -/
theorem C65_questions (env : Env) (fuel h : Nat) (toks : List Tok) (input : Input) (n out : Node)
    (hin : input = .stmt n ∨ input = .expr n) (hrun : autoEnum env fuel h toks input = .code out)
    (marks : String → Bool)
    (hM : ∀ m, MarkerOf toks m ∨ (∃ ts, InnerArgs n ts ∧ MarkerOf ts m) → marks m = true)
    {B S : Type} (M : Machine B S) (code : Code B S) (O : Observer B S)
    (hB : Blind M code O) (hX : O.exits) (L : Errs M O) (f : Nat)
    (hQ : Questions M code marks O L.ok (f + 3) n) :
    O.den (meaning M code marks (f + 3) n) (meaning M code marks (f + 3) out) :=
  (edit_keeps hB L hX (sane_permitted hM) (C04_edits env fuel h toks input n out hin hrun) hQ).1

/-! ## A machine whose values are terms -/

namespace Ex

/-- The name of a constructor of a generated enum. -/
def generated (x : String) : Bool := "__Enum".toList.isPrefixOf x.toList

/-- The value without the variants around it. -/
def peel : Value String → Value String
  | .base b => .base b
  | .inj x v => if generated x then peel v else .inj x v

/-- The value without variants anywhere. -/
def bare : Value String → Value String
  | .base b => .base b
  | .inj x v => if generated x then bare v else .inj x (bare v)

/-- The value of a variable; other names stand for themselves. -/
def lookup (x : String) : List (String × Value String) → Value String
  | [] => .base x
  | (y, v) :: s => if y = x then v else lookup x s

/-- Values are terms and the state has the values of the variables.  A call builds a term, and so does the call of
a constructor of a generated enum; all operations ignore the latter. -/
def terms : Machine String (List (String × Value String)) where
  unit := "()"
  step k vs s :=
    match k, vs with
    | .eLit l, _ => .done (.base l) s
    | .ePath _ ⟨_, [⟨x, _⟩]⟩, _ =>
      if x = "val" ∨ x = "err" then
        match s with
        | (y, v) :: s => if y = x then .done v s else .panic s
        | [] => .panic s
      else .done (lookup x s) s
    | .ePath _ ⟨_, [⟨x, _⟩, ⟨y, _⟩]⟩, _ => .done (.base (if generated x then x ++ y else y)) s
    | .ePath _ ⟨_, [_, _, _, ⟨y, _⟩]⟩, _ => .done (.base y) s
    | .eCall, [] => .kid 0 s
    | .eCall, [_] => .kid 1 s
    | .eCall, g :: v :: _ =>
      match peel g with
      | .base b => .done (.inj b v) s
      | _ => .panic s
    | .eTry, v :: _ =>
      match peel v with
      | .inj _ u => .done u s
      | _ => .panic s
    | .sLocal (.plain x), v :: _ => .done (.base "()") ((x, v) :: s)
    | .iFn _ _, [] => .kid 0 s
    | .iFn _ _, v :: _ => .done v s
    | _, _ => .done (.base "?") s
  test p v s :=
    match peel v with
    | .base b => (p == "_" || b == p, s)
    | .inj x u =>
      if x = "Ok" ∧ p = "::core::result::Result::Ok(val)" then (true, ("val", u) :: s)
      else if x = "Err" ∧ p = "::core::result::Result::Err(err)" then (true, ("err", u) :: s)
      else (p == "_", s)
  truth v _ :=
    match peel v with
    | .base b => b == "true"
    | .inj _ _ => false
  frozen _ _ s := (some (.base "code"), s)
  none := .base "None"
  err v := .inj "Err" v
  fails v :=
    match peel v with
    | .base b => b == "None"
    | .inj x _ => x == "Err"
  fails_none := by decide
  fails_err _ := by simp [peel, show generated "Err" = false by decide]
  tried b v := if b then .inj "Ok" v else v

/-- A closure is a term with the value of its body. -/
def termCode : Code String (List (String × Value String)) := fun _ ds s =>
  match ds with
  | [] => (some (.base "closure"), s)
  | d :: _ =>
    match d (.base "()") s with
    | some (.val v, _) => (some (.inj "closure" v), s)
    | _ => (some (.base "closure"), s)

/-- Values look the same if they are up to variants; if `exits`, `?` looks like `return`. -/
def lookThrough (exits : Prop) : Observer String (List (String × Value String)) where
  value v w := bare v = bare w
  state s t := s.map (fun p => (p.1, bare p.2)) = t.map (fun p => (p.1, bare p.2))
  exits := exits

theorem bare_peel (v : Value String) : bare v = match peel v with
    | .base b => .base b
    | .inj x u => .inj x (bare u) := by
  induction v with
  | base b => rfl
  | inj x v ih =>
    by_cases h : generated x = true
    · simp only [bare, peel, h, if_true, ih]
    · simp only [bare, peel, h]
      simp

theorem peel_looks {v w : Value String} (h : bare v = bare w) :
    (∃ b, peel v = .base b ∧ peel w = .base b) ∨
      ∃ x u u', peel v = .inj x u ∧ peel w = .inj x u' ∧ bare u = bare u' := by
  rw [bare_peel v, bare_peel w] at h
  cases hv : peel v <;> cases hw : peel w <;> simp [hv, hw] at h
  · exact .inl ⟨_, rfl, by rw [h]⟩
  · exact .inr ⟨_, _, _, rfl, by rw [h.1], h.2⟩

theorem lookup_looks {X : Prop} (x : String) : ∀ {s t : List (String × Value String)},
    (lookThrough X).state s t → bare (lookup x s) = bare (lookup x t)
  | [], [], _ => rfl
  | [], _ :: _, h => by simp [lookThrough] at h
  | _ :: _, [], h => by simp [lookThrough] at h
  | (y, v) :: s, (z, w) :: t, h => by
    simp only [lookThrough, List.map_cons, List.cons.injEq, Prod.mk.injEq] at h
    obtain ⟨⟨rfl, h1⟩, h2⟩ := h
    simp only [lookup]
    split
    · exact h1
    · exact lookup_looks (X := X) x h2

theorem terms_blind (X : Prop) : Blind terms termCode (lookThrough X) where
  value_refl _ := rfl
  value_symm _ _ h := h.symm
  value_trans _ _ _ h h' := h.trans h'
  state_refl _ := rfl
  state_symm _ _ h := h.symm
  state_trans _ _ _ h h' := h.trans h'
  step k vs ws s t hv hs := by
    cases k with
    | eCall =>
      match vs, ws, hv with
      | [], [], _ => exact ⟨rfl, hs⟩
      | [], _ :: _, h => exact h.elim
      | _ :: _, [], h => exact h.elim
      | [_], [_], _ => exact ⟨rfl, hs⟩
      | [_], _ :: _ :: _, h => exact h.2.elim
      | _ :: _ :: _, [_], h => exact h.2.elim
      | g :: v :: _, g' :: v' :: _, h =>
        rcases peel_looks h.1 with ⟨b, h1, h2⟩ | ⟨x, u, u', h1, h2, h3⟩
        · simp only [terms, h1, h2]
          refine ⟨?_, hs⟩
          have h3 : bare v = bare v' := h.2.1
          simp only [lookThrough, bare, h3]
        · simp only [terms, h1, h2]
          exact hs
    | eTry =>
      match vs, ws, hv with
      | [], [], _ => exact ⟨rfl, hs⟩
      | [], _ :: _, h => exact h.elim
      | _ :: _, [], h => exact h.elim
      | v :: _, v' :: _, h =>
        rcases peel_looks h.1 with ⟨b, h1, h2⟩ | ⟨x, u, u', h1, h2, h3⟩
        · simp only [terms, h1, h2]
          exact hs
        · simp only [terms, h1, h2]
          exact ⟨h3, hs⟩
    | sLocal p =>
      match p, vs, ws, hv with
      | .typed _ _, _, _, _ => exact ⟨rfl, hs⟩
      | .plain _, [], [], _ => exact ⟨rfl, hs⟩
      | .plain _, [], _ :: _, h => exact h.elim
      | .plain _, _ :: _, [], h => exact h.elim
      | .plain x, v :: _, v' :: _, h =>
        refine ⟨rfl, ?_⟩
        have h3 : bare v = bare v' := h.1
        have h4 : s.map (fun p => (p.1, bare p.2)) = t.map (fun p => (p.1, bare p.2)) := hs
        simp only [lookThrough, List.map_cons, h3, h4]
    | iFn =>
      match vs, ws, hv with
      | [], [], _ => exact ⟨rfl, hs⟩
      | [], _ :: _, h => exact h.elim
      | _ :: _, [], h => exact h.elim
      | v :: _, v' :: _, h => exact ⟨h.1, hs⟩
    | ePath q p =>
      match p with
      | ⟨_, []⟩ => exact ⟨rfl, hs⟩
      | ⟨_, [⟨x, _⟩]⟩ =>
        by_cases hx : x = "val" ∨ x = "err"
        · simp only [terms, hx, if_true]
          match s, t, hs with
          | [], [], hs => exact hs
          | [], _ :: _, hs => simp [lookThrough] at hs
          | _ :: _, [], hs => simp [lookThrough] at hs
          | (y, v) :: s, (z, w) :: t, hs =>
            simp only [lookThrough, List.map_cons, List.cons.injEq, Prod.mk.injEq] at hs
            obtain ⟨⟨rfl, h1⟩, h2⟩ := hs
            dsimp only
            split
            · exact ⟨h1, h2⟩
            · exact h2
        · simp only [terms, hx, if_false]
          exact ⟨lookup_looks x hs, hs⟩
      | ⟨_, [⟨x, _⟩, ⟨y, _⟩]⟩ => exact ⟨rfl, hs⟩
      | ⟨_, [_, _, _]⟩ => exact ⟨rfl, hs⟩
      | ⟨_, [_, _, _, _]⟩ => exact ⟨rfl, hs⟩
      | ⟨_, _ :: _ :: _ :: _ :: _ :: _⟩ => exact ⟨rfl, hs⟩
    | _ => exact ⟨rfl, hs⟩
  test p v w s t h hs := by
    rcases peel_looks h with ⟨b, h1, h2⟩ | ⟨x, u, u', h1, h2, h3⟩
    · simp only [terms, h1, h2]
      exact ⟨trivial, hs⟩
    · simp only [terms, h1, h2]
      split
      · exact ⟨rfl, by simpa [lookThrough, h3] using hs⟩
      · split
        · exact ⟨rfl, by simpa [lookThrough, h3] using hs⟩
        · exact ⟨rfl, hs⟩
  truth v w s t h hs := by
    rcases peel_looks h with ⟨b, h1, h2⟩ | ⟨x, u, u', h1, h2, h3⟩ <;> simp [terms, h1, h2]
  fails v w h := by
    rcases peel_looks h with ⟨b, h1, h2⟩ | ⟨x, u, u', h1, h2, h3⟩ <;> simp [terms, h1, h2]
  tried b v w h := by
    cases b
    · exact h
    · simp only [terms, lookThrough, bare, if_true]
      split
      · exact h
      · exact congrArg _ h
  frozen k ks s t hs := ⟨rfl, hs⟩
  code k ds es s t h hs := by
    cases ds <;> cases es <;> first | exact h.elim | skip
    · exact ⟨rfl, hs⟩
    · rename_i d ds e es
      have h1 := h.1 (.base "()") (.base "()") s t rfl hs
      simp only [termCode]
      rcases hd : d (.base "()") s with _ | ⟨o, s1⟩ <;> rcases he : e (.base "()") t with _ | ⟨o', t1⟩ <;>
        rw [hd, he] at h1 <;> first | exact h1.elim | skip
      · exact ⟨rfl, hs⟩
      · cases o <;> cases o' <;> first | exact h1.1.elim | exact ⟨rfl, hs⟩ | skip
        refine ⟨?_, hs⟩
        have h2 : bare _ = bare _ := h1.1
        simp [lookThrough, bare, show generated "closure" = false by decide, h2]
  callee _ := rfl
  constructor h i := by
    have h1 : generated ("__Enum" ++ toString h) = true := prefix_self _ _
    have h2 : generated ("__Enum" ++ toString h ++ ("__Variant" ++ toString i)) = true := by
      rw [String.append_assoc]
      exact prefix_self _ _
    refine ⟨.base ("__Enum" ++ toString h ++ ("__Variant" ++ toString i)),
      .inj ("__Enum" ++ toString h ++ ("__Variant" ++ toString i)), fun s => ?_, fun s => rfl, fun v s => rfl,
      fun v => ?_⟩
    · simp only [terms, variantPath, h1, if_true]
    · simp only [lookThrough, bare, h2, if_true]

/-- `Ok(..)` and `Err(..)` are terms. -/
def terms_errs (X : Prop) : Errs terms (lookThrough X) where
  ok v := .inj "Ok" v
  fails_ok v := by simp [terms, peel, show generated "Ok" = false by decide]
  tryOk v s := by simp [terms, peel, show generated "Ok" = false by decide]
  okArm v s := by simp [terms, peel, show generated "Ok" = false by decide, variable_]
  errMiss v s := by simp [terms, peel, show generated "Err" = false by decide]
  errArm v s := by simp [terms, peel, show generated "Err" = false by decide, variable_]
  errFn := .base "Err"
  path s := rfl
  arg s := rfl
  call v s := rfl
  err v w h := by
    have h1 : bare v = bare w := h
    simp [terms, lookThrough, bare, h1]

/-- The name of the markers. -/
def isMarker (m : String) : Bool := m == "marker"

theorem markers_iterator (m : String) (h : MarkerOf iterator m) : isMarker m = true := by
  obtain ⟨args, h | ⟨_, h⟩⟩ := h
  · rw [← parseArgs_iff] at h
    cases h
  · simp [isMarker, h]

/-- `let x = match a { 0 => 1, _ => { #[auto_enum(Iterator)] let y = if c { 2 } else { 3 }; marker!(y) } };` and its
expansion meet the hypotheses, and if `c` is true, then `x` is `2` after the source and `2` in variants of two
enums after the expansion. -/
example : autoEnum env 20 5 iterator (.stmt letIn) = .code letOut ∧
    (∀ m, MarkerOf iterator m ∨ (∃ ts, InnerArgs letIn ts ∧ MarkerOf ts m) → isMarker m = true) ∧
    questions letOut = questions letIn ∧ (∀ l ∈ labels letIn, l.1 ≠ .eTry) ∧
    meaning terms termCode isMarker 20 letIn (.base "()") [("c", .base "true")] =
      some (.val (.base "()"), [("x", .base "2"), ("y", .base "2"), ("c", .base "true")]) ∧
    meaning terms termCode isMarker 20 letOut (.base "()") [("c", .base "true")] =
      some (.val (.base "()"), [("x", .inj "__Enum5__Variant1" (.inj "__Enum7__Variant0" (.base "2"))),
        ("y", .inj "__Enum7__Variant0" (.base "2")), ("c", .base "true")]) := by
  refine ⟨let_run, ?_, by decide +kernel, by decide +kernel, by decide +kernel, by decide +kernel⟩
  rintro m (h | ⟨ts, ⟨a, ha, _, hf⟩, h⟩)
  · exact markers_iterator m h
  · have : allAttrs letIn = [⟨.ofIdents [NAME], .list iterator⟩] := by decide +kernel
    rw [this, List.mem_singleton] at ha
    subst ha
    rcases hf with hf | ⟨hf, _⟩
    · cases hf; exact markers_iterator m h
    · cases hf

/-- `Result::Ok(..)` or `Result::Err(..)` -/
def result (x : String) (e : Node) : Node := .mk .eCall [] [pathE (.ofIdents ["Result", x]), e]

/-- `fn f() -> Result<T, impl Iterator> { if c { Result::Ok(1) } else { Result::Err(2) }?; Result::Err(3)?; z }` -/
def errFnIn : Node := .mk (.iFn "f" (some (.mk (.path false (.ofIdents ["Result"]) (some false))
  [.mk .argType [.mk (.other "T") []], .mk .argType [implIter]]))) [] [.mk .block []
  [semiS (.mk .eTry [] [.mk .eIf [] [var "c", .mk .block [] [tailS (result "Ok" (lit "1"))],
      exprBlock [tailS (result "Err" (lit "2"))]]]),
   semiS (.mk .eTry [] [result "Err" (lit "3")]), tailS (var "z")]]

theorem errFn_questions (X : Prop) (f : Nat) :
    Questions terms termCode isMarker (lookThrough X) (terms_errs X).ok (f + 3) errFnIn := by
  have h1 : ∀ x l y s, meaning terms termCode isMarker (f + 3) (result x (lit l)) y s =
      some (.val (.inj x (.base l)), s) := fun x l y s => rfl
  have h2 : ∀ x s, meaning terms termCode isMarker (f + 3) (.mk .eIf [] [var "c",
      .mk .block [] [tailS (result "Ok" (lit "1"))], exprBlock [tailS (result "Err" (lit "2"))]]) x s =
      if terms.truth (lookup "c" s) s then some (.val (.inj "Ok" (.base "1")), s)
      else some (.val (.inj "Err" (.base "2")), s) := fun x s => rfl
  simp only [errFnIn, Questions, QuestionsL, semiS, tailS, exprBlock, var, lit, result, pathE] at h1 h2 ⊢
  simp only [ne_eq, reduceCtorEq, not_false_eq_true, true_and, and_true, false_implies, List.mem_singleton,
    forall_eq, true_implies]
  refine ⟨fun x s v s' h => ?_, fun x s v s' h => ?_⟩
  · rw [h2] at h
    split at h
    · cases h
      exact ⟨.base "1", .inl rfl⟩
    · cases h
      exact ⟨.base "2", .inr rfl⟩
  · rw [h1] at h
    cases h
    exact ⟨.base "3", .inr rfl⟩

/-- The hypotheses of `C65_questions` are met by this function.  If `c` is not true, then a `?` of the source fails
with `Err(2)` and the expansion returns `Err(..)` of `2` in a variant; otherwise the same happens with `3`. -/
example : (∀ m, MarkerOf iterator m ∨ (∃ ts, InnerArgs errFnIn ts ∧ MarkerOf ts m) → isMarker m = true) ∧
    (∃ out, autoEnum env 20 5 iterator (.stmt errFnIn) = .code out ∧
      (decide (meaning terms termCode isMarker 20 out (.base "()") [("c", .base "false")] =
          some (.ret (.inj "Err" (.inj "__Enum5__Variant0" (.base "2"))), [("c", .base "false")])) &&
        decide (meaning terms termCode isMarker 20 out (.base "()") [("c", .base "true")] =
          some (.ret (.inj "Err" (.inj "__Enum5__Variant1" (.base "3"))), [("c", .base "true")]))) = true) ∧
    meaning terms termCode isMarker 20 errFnIn (.base "()") [("c", .base "false")] =
      some (.fail (.inj "Err" (.base "2")), [("c", .base "false")]) ∧
    meaning terms termCode isMarker 20 errFnIn (.base "()") [("c", .base "true")] =
      some (.fail (.inj "Err" (.base "3")), [("c", .base "true")]) := by
  refine ⟨?_, of_check (by decide +kernel), by decide +kernel, by decide +kernel⟩
  rintro m (h | ⟨ts, ⟨a, ha, _, hf⟩, h⟩)
  · exact markers_iterator m h
  · have : allAttrs errFnIn = [] := by decide +kernel
    rw [this] at ha
    cases ha

end Ex

end AutoEnums
