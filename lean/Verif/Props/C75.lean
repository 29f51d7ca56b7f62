import Verif.Lemmas.Closure
import Verif.Props.C08
import Verif.Props.C72

/-! # C75: on a function the attribute acts as on a closure with the same body -/

namespace AutoEnums

open Spec

namespace Closure

theorem visitFn_body (cx : Cx) (as : List Attr) (ss : List Node) :
    visitFn cx (exprBlock ss) = visitFn cx (.mk .block as ss) := by
  simp only [visitFn, exprBlock, fnCount, fnCountHere, Scope.check, Kind.isOpaque]
  rfl

/-- A function of which the mode is found as that of a closure. -/
theorem fn_mode {env : Env} {cx : Cx} (hf : Fresh cx) (hr : cx.root = true) {name : String} {ty : Ty} {as asb : List Attr}
    {ss : List Node} (hs : shaped (.mk .block asb ss) = true)
    (hinf : inferredFor env.typeAnalysis cx.args (.mk (.iFn name (some ty)) as [.mk .block asb ss]) = [])
    (hm : ((∃ bs tks, ty = .mk (.implTrait bs) tks) ∧ ourCount .try_ cx.marker (exits false {} (.mk .block asb ss)) < 2) ∨
      (IsResultImpl ty ∧ 2 ≤ ourCount .try_ cx.marker (exits false {} (.mk .block asb ss)))) :
    fnAnalysis env cx (some ty) (.mk .block asb ss) =
      { cx with mode := if (visitFn cx (exprBlock ss)).try_ ≥ 2 then .try_ else .ret (visitFn cx (exprBlock ss)).return_ } := by
  have ht := (fnAnalysis_traits (env := env) hf name (some ty) as [.mk .block asb ss] (.mk .block asb ss)).1
  rw [hinf] at ht
  have hl : (cx.lastMode == VisitLastMode.never) = false := by rw [hf.lastMode]; rfl
  have hmode : retMode cx ty (.mk .block asb ss) =
      if (visitFn cx (exprBlock ss)).try_ ≥ 2 then .try_ else .ret (visitFn cx (exprBlock ss)).return_ := by
    rw [visitFn_body cx asb]
    have hc := (fnCount_exits hr false (.mk .block asb ss) {} hs rfl rfl).2
    rw [← hc] at hm
    change _ ∧ (visitFn cx (.mk .block asb ss)).try_ < 2 ∨ _ ∧ 2 ≤ (visitFn cx (.mk .block asb ss)).try_ at hm
    rcases hm with ⟨⟨bs, tks, rfl⟩, hm⟩ | ⟨⟨p, t, bs, tks, hp, rfl⟩, hm⟩
    · rw [if_neg (by omega)]
      simp [retMode, hl]
    · rw [if_pos (by omega)]
      have hq := (pathEq_result p).mpr hp
      simp [retMode, hl, hq, hm]
  have htr : cx.traits = [] := hf.traits
  revert ht
  unfold fnAnalysis
  dsimp only
  rw [hmode]
  split
  · dsimp only [Cx.collectImplTrait]
    intro ht
    obtain ⟨⟩ := cx
    simp_all
  · intro _; rfl

/-- What is done with the body of a function. -/
def bodyRun (env : Env) (f : Nat) (cx : Cx) (ss : List Node) : Cx × List Node :=
  let r := childLast cx ss
  mapA (visit env (f + 1) .visitor {}) r.1 r.2

theorem exit_args {env : Env} {cx : Cx} (h : cx.args ≠ []) : cx.analysisExit env = false := by
  unfold Cx.analysisExit
  have : cx.args.isEmpty = false := by cases hc : cx.args <;> simp_all
  cases cx.mode <;> simp [this]

theorem closure_run {env : Env} {f : Nat} {cx : Cx} {i : String} {asc : List Attr} {ss : List Node} (ha : cx.args ≠ [])
    (hv : cx.visitLast = true) (hst : ∀ s ∈ ss, s.kind.isStmt = true) :
    expandExpr env (visit env (f + 2)) cx (.mk (.eClosure i) asc [exprBlock ss]) =
      (let r := bodyRun env f { cx with mode := if (visitFn cx (exprBlock ss)).try_ ≥ 2 then .try_ else .ret (visitFn cx (exprBlock ss)).return_ } ss
       (r.1, .mk (.eClosure i) asc [exprBlock r.2])) := by
  unfold expandExpr
  dsimp only
  rw [if_pos hv]
  generalize hcx : ({ cx with mode := _ } : Cx) = c
  have ha' : c.args ≠ [] := by rw [← hcx]; exact ha
  have hk : (childLast c ss).1.args = c.args := (childLast_same ss c).toKept.args
  unfold expandTarget
  rw [child_block]
  dsimp only
  rw [exit_args (by rw [hk]; exact ha')]
  simp only [Bool.false_eq_true, if_false]
  rw [visit_exprBlock env f _ (childLast_stmts hst)]
  rfl

theorem fn_run {env : Env} {f : Nat} {cx c : Cx} {name : String} {ret : Option Ty} {as asb : List Attr} {ss : List Node}
    (hc : fnAnalysis env cx ret (.mk .block asb ss) = c) (ha : c.args ≠ []) (hne : ss ≠ []) :
    expandParentFn env (visit env (f + 2)) cx name ret as asb ss =
      (let r := bodyRun env f c ss
       (r.1.build.1, .mk (.iFn name ret) as [.mk .block asb (r.1.build.2.toList ++ r.2)])) := by
  have hd : c.isDummy = false := by
    unfold Cx.isDummy
    cases hx : c.args <;> simp_all
  have hk : (childLast c ss).1.args = c.args := (childLast_same ss c).toKept.args
  have he : ss.isEmpty = false := by cases ss <;> simp_all
  unfold expandParentFn
  dsimp only
  rw [hc, hd, he]
  simp only [Bool.false_eq_true, if_false]
  rw [exit_args (by rw [hk]; exact ha)]
  simp only [Bool.false_eq_true, if_false]
  have hw : ∀ c ss, walk (visit env (f + 2) .visitor {}) c (.mk (.iFn name ret) as [.mk .block asb ss]) =
      ((mapA (visit env (f + 1) .visitor {}) c ss).1, .mk (.iFn name ret) as [.mk .block asb (mapA (visit env (f + 1) .visitor {}) c ss).2]) :=
    fun _ _ => rfl
  rw [hw]
  unfold bodyRun
  dsimp only
  cases hb : (mapA (visit env (f + 1) .visitor {}) (childLast c ss).1 (childLast c ss).2).1.build with
  | mk c' d => cases d <;> rfl

end Closure

/-- The return type of a function tells what is done with its body, by the number of its `?`s (`tries`): as for a
closure, the values and `return`s are wrapped if there are fewer than two, and the `?`s otherwise.  These are the
functions returning `impl ..` with fewer than two `?`s, and those returning `Result<_, impl ..>` with two or more. -/
def Spec.AsClosure (ty : Ty) (tries : Nat) : Prop :=
  ((∃ bs tks, ty = .mk (.implTrait bs) tks) ∧ tries < 2) ∨ (IsResultImpl ty ∧ 2 ≤ tries)

/-- C75: with a trait among the arguments, `#[auto_enum(..)] fn name(..) -> T { body }` is treated as the closure
`#[auto_enum(..)] |..| { body }`: the same errors are reported, or the same body (`o`) replaces the one given and the
same enum (`d`) is declared, for the function as the first item of the body, for the closure before it.

The return type must be of the kind on which the body is treated as one of a closure (closures have none that
is looked at), and contain no further traits to be inferred (those which `type_analysis` finds are added to the
enum's). -/
theorem C75 (env : Env) (fuel h : Nat) (toks : List Tok) (traits : List Path) (mk : Option Ident)
    (hargs : IsArgs toks traits mk) (ht : traits ≠ []) (name : String) (ty : Ty) (as asb asc : List Attr) (i : String)
    (ss : List Node) (hne : ss ≠ []) (hst : ∀ s ∈ ss, s.kind.isStmt = true) (fn : Node)
    (hfn : fn = .mk (.iFn name (some ty)) as [.mk .block asb ss]) (hs : shaped fn = true)
    (hinf : inferredFor env.typeAnalysis traits fn = [])
    (hty : AsClosure ty (ourCount .try_ (mk.getD "marker") (exits false {} fn))) (hfuel : 2 ≤ fuel) :
    ∃ (o : Output) (d : Option Node),
      autoEnum env fuel h toks (.stmt fn) =
        Spec.Output.put (fun body => .mk (.iFn name (some ty)) as [.mk .block asb (d.toList ++ body.kids)]) o ∧
      autoEnum env fuel h toks (.expr (.mk (.eClosure i) asc [.mk (.eBlock none) [] ss])) =
        Spec.Output.put (fun body => declare d (.mk (.eClosure i) asc [body])) o ∧
      (∀ body, o = .code body → ∃ ss', body = .mk (.eBlock none) [] ss') := by
  obtain ⟨f, rfl⟩ : ∃ f, fuel = f + 2 := ⟨fuel - 2, by omega⟩
  subst hfn
  unfold autoEnum
  cases hnew : Cx.new h toks true [] [] with
  | error e => exact ⟨.errors [e], none, rfl, rfl, by rintro _ h; cases h⟩
  | ok cx =>
    have hf := new_fresh hnew
    obtain ⟨m, p1, p2, p3, _, p4, _, _, p7, _⟩ := new_args hnew
    rw [(parseArgs_iff _ _ _).mpr hargs] at p1
    cases p1
    have hsb : shaped (.mk .block asb ss) = true := by
      simp only [shaped, shapedL, Bool.and_true] at hs ⊢; exact hs
    rw [exits_iFn, show mk.getD "marker" = cx.marker from p3.symm] at hty
    have hA := Closure.fn_mode hf p4 hsb hinf hty
    have hd : cx.isDummy = false := by
      unfold Cx.isDummy
      cases hx : cx.args <;> simp_all
    have hv : cx.visitLast = true := by
      unfold Cx.visitLast
      rw [hf.lastMode, hf.mode]
      rfl
    have h1 := Closure.fn_run (f := f) (name := name) (as := as) hA ht hne
    have h2 := Closure.closure_run (env := env) (f := f) (i := i) (asc := asc) ht hv hst
    simp only [expandInput, expandParentStmt, expandParentExpr, Bool.false_eq_true, if_false, hd, expandBuild]
    rw [h1]
    change _ = _ at h2
    rw [show (Node.mk (.eBlock none) [] ss) = exprBlock ss from rfl, h2]
    dsimp only
    generalize Closure.bodyRun env f _ ss = r
    cases hB : r.1.build with
    | mk c d =>
      refine ⟨finish (c, exprBlock r.2), d, ?_, ?_, ?_⟩
      · exact finish_put (c, exprBlock r.2) fun body => .mk (.iFn name (some ty)) as [.mk .block asb (d.toList ++ body.kids)]
      · cases d with
        | none => exact finish_put (c, exprBlock r.2) fun body => .mk (.eClosure i) asc [body]
        | some item => exact finish_put (c, exprBlock r.2) fun body => declare (some item) (.mk (.eClosure i) asc [body])
      · intro body hb
        unfold finish at hb
        dsimp only at hb
        split at hb
        · split at hb
          · cases hb; exact ⟨_, rfl⟩
          · cases hb
        · cases hb

/-- The statements of a function. -/
def Ex.stmtsOf (fn : Node) : List Node := fn.kids.flatMap (·.kids)

/-- The hypotheses are met by a function returning `impl Iterator` and by one returning `Result<T, impl Iterator>` with
two `?`s. -/
example : (∃ item ss', autoEnum Ex.env 20 5 Ex.iterator (.stmt Ex.retIn) =
        .code (.mk (.iFn "f" (some Ex.implIter)) [] [.mk .block [] (item :: ss')]) ∧
      autoEnum Ex.env 20 5 Ex.iterator (.expr (.mk (.eClosure "x") [] [.mk (.eBlock none) [] (Ex.stmtsOf Ex.retIn)])) =
        .code (declare (some item) (.mk (.eClosure "x") [] [.mk (.eBlock none) [] ss']))) ∧
    ∃ item ss', autoEnum Ex.env 20 5 Ex.iterator (.stmt Ex.tryIn) =
        .code (.mk (.iFn "f" (some Ex.resImpl)) [] [.mk .block [] (item :: ss')]) ∧
      autoEnum Ex.env 20 5 Ex.iterator (.expr (.mk (.eClosure "x") [] [.mk (.eBlock none) [] (Ex.stmtsOf Ex.tryIn)])) =
        .code (declare (some item) (.mk (.eClosure "x") [] [.mk (.eBlock none) [] ss'])) := by
  have main : ∀ (ty : Ty) (fn : Node), fn = .mk (.iFn "f" (some ty)) [] [.mk .block [] (Ex.stmtsOf fn)] →
      Ex.stmtsOf fn ≠ [] → (∀ s ∈ Ex.stmtsOf fn, s.kind.isStmt = true) → shaped fn = true →
      inferredFor Ex.env.typeAnalysis [.ofIdents ["Iterator"]] fn = [] →
      AsClosure ty (ourCount .try_ "marker" (exits false {} fn)) →
      (∃ out, autoEnum Ex.env 20 5 Ex.iterator (.expr (.mk (.eClosure "x") [] [.mk (.eBlock none) [] (Ex.stmtsOf fn)])) =
        .code out ∧ (fun out : Node => out.kind == .eBlock none) out = true) →
      ∃ item ss', autoEnum Ex.env 20 5 Ex.iterator (.stmt fn) = .code (.mk (.iFn "f" (some ty)) [] [.mk .block [] (item :: ss')]) ∧
        autoEnum Ex.env 20 5 Ex.iterator (.expr (.mk (.eClosure "x") [] [.mk (.eBlock none) [] (Ex.stmtsOf fn)])) =
          .code (declare (some item) (.mk (.eClosure "x") [] [.mk (.eBlock none) [] ss'])) := by
    intro ty fn h1 h2 h3 h4 h5 h6 ⟨out, h7, h8⟩
    obtain ⟨o, d, g1, g2, g3⟩ := C75 Ex.env 20 5 _ _ _ Ex.isArgs (by simp) "f" ty [] [] [] "x" _ h2 h3 fn h1 h4 h5 h6 (by decide)
    rw [h7] at g2
    cases o with
    | code body =>
      obtain ⟨ss', rfl⟩ := g3 body rfl
      cases d with
      | none => cases g2; cases h8
      | some item => exact ⟨item, ss', g1, by rw [h7, g2]; rfl⟩
    | errors es => cases g2
    | panicked ps => cases g2
  exact ⟨main Ex.implIter Ex.retIn rfl (by decide) (by decide) (by decide) rfl
      (.inl ⟨⟨_, _, rfl⟩, by decide⟩) (Ex.of_check (by decide +kernel)),
    main Ex.resImpl Ex.tryIn rfl (by decide) (by decide) (by decide) rfl
      (.inr ⟨⟨_, _, _, _, by decide, rfl⟩, by decide⟩) (Ex.of_check (by decide +kernel))⟩

/-- The condition on the type is needed: in `fn f() { a?; return 1; match x { 0 => 2, _ => 3 } }` the `return` is
left alone, and in the closure it is wrapped. -/
example : (∃ out, autoEnum Ex.env 20 5 Ex.iterator (.stmt (.mk (.iFn "f" none) [] [.mk .block []
      (Ex.stmtsOf (Ex.closure Ex.closureIn))])) = .code out ∧
      decide ((exits true {} out).map (·.value) = [some .other, some .other]) = true) ∧
    ∃ out, autoEnum Ex.env 20 5 Ex.iterator (.expr (Ex.closure Ex.closureIn)) = .code out ∧
      decide ((exits true {} out).map (·.value) =
        [some .other, some (.call (variantPath "__Enum5" "__Variant2"))]) = true :=
  ⟨Ex.of_check (by decide +kernel), Ex.of_check (by decide +kernel)⟩

end AutoEnums
