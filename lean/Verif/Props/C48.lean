import Verif.Lemmas.Errors
import Verif.Examples

/-! # C48: errors of nested attributes do not hide each other -/

namespace AutoEnums

open Spec

/-- C48, errors that are already recorded: once there are errors, visiting code (with whatever
attributes in it) neither changes it nor adds or removes errors. -/
theorem C48_after (env : Env) (f : Nat) (vk : VK) (sc : Scope) (cx : Cx) (n : Node) (es : List Err)
    (hes : es ≠ []) (hcx : cx.errs = es) :
    (visit env f vk sc cx n).1.errs = es ∧ (visit env f vk sc cx n).2 = n := by
  induction f generalizing vk sc cx n with
  | zero => exact ⟨hcx, rfl⟩
  | succ f ih =>
    have he : cx.hasError = true := by
      simp only [Cx.hasError, hcx, Bool.not_eq_true', List.isEmpty_eq_false_iff]; exact hes
    have hw : ∀ vk sc n, (walk (visit env f vk sc) cx n).1.errs = es ∧
        (walk (visit env f vk sc) cx n).2 = n := fun vk sc n =>
      walk_unmoved (P := fun cx => cx.errs = es) (fun cx n h => ih vk sc cx n h) hcx n
    cases vk with
    | visitor =>
      simp only [visit, visitorStep, he, if_true]
      split
      · exact ⟨hcx, rfl⟩
      · split
        · simp only [visitStmt, he, if_true]; exact ⟨hcx, trivial⟩
        · split
          · simp only [visitArm, he, if_true]; exact ⟨hcx, trivial⟩
          · exact hw _ _ _
    | dummy =>
      simp only [visit, dummyStep, he, if_true]
      split
      · exact ⟨hcx, rfl⟩
      · split
        · exact ⟨hcx, rfl⟩
        · exact hw _ _ _

/-- The inner attribute `a` of the expression `n`, with or without a semicolon behind it, is expanded after
its region has been visited: the errors afterwards are `out`. -/
def Spec.ExpandedApart (env : Env) (f : Nat) (vk : VK) (ms : List String) (n : Node) (a : Attr) (toks : List Tok)
    (semi : Bool) (out : List Err) : Prop :=
  ∃ (n1 : Node) (sc1 : Scope) (cx1 child : Cx) (region inner : Cx × Node) (es : List Err),
    -- the expression as it is found then: `return`s may have been wrapped and `?`s desugared
    (vk = .dummy ∨ n.kind ≠ .eReturn ∧ n.kind ≠ .eTry → n1 = n) ∧
    -- the region is visited in a context without errors
    cx1.errs = [] ∧ region = walk (visit env f vk sc1) cx1 (without n1) ∧
    -- the inner attribute is expanded in a new context, which has no errors
    Cx.new (env.hash (without n1)) toks false ms [] = .ok child ∧
    inner = expandParentExpr env (visit env f) child region.2 semi ∧
    -- all errors are kept
    out = region.1.errs ++ inner.1.errs ++ es

/-- C48: when a visitor that has recorded no error comes to an expression with an inner attribute whose
arguments are fine, the errors afterwards are, in this order: those that the visitor records in the
region of that attribute; all those that the attribute itself records on what the region has become then,
starting without any; and those recorded later.  So the errors of the region do not keep the inner
attribute from recording its own. -/
theorem C48 (env : Env) (f : Nat) (vk : VK) (sc : Scope) (cx : Cx) (n : Node) (a : Attr)
    (toks : List Tok) (traits : List Path) (mk : Option Ident) (hcx : cx.errs = [])
    (hn : n.kind.isExpr = true) (ha : bears a n) (hf : a.form = .list toks)
    (hargs : IsArgs toks traits mk) (hmk : ∀ i, mk = some i → i ∉ cx.markers) :
    ExpandedApart env f vk cx.markers n a toks false (visit env (f + 1) vk sc cx n).1.errs := by
  have he : cx.hasError = false := by simp [Cx.hasError, hcx]
  cases vk with
  | visitor =>
    obtain ⟨sc1, cx0, cx1, child, es, -, h1, h2, h3⟩ :=
      visitExpr_errors (env := env) (rec := visit env f) (sc := sc) (semi := false) hcx ha hf hargs hmk
    refine ⟨_, sc1, cx1, child, _, _, es, ?_, h1, rfl, h2, rfl, ?_⟩
    · rintro (h | ⟨h4, h5⟩)
      · cases h
      · exact visitMode_elsewhere _ _ h4 h5
    · simp only [visit, visitorStep, hn, if_true, he, Bool.false_eq_true, if_false]
      exact h3
  | dummy =>
    obtain ⟨cx1, child, h1, h2, h3⟩ := vsVisitExpr_errors (env := env) (rec := visit env f) (vk := .dummy)
      (sc := sc) (cx := { cx with hasChild := true }) (semi := false) hcx ha hf hargs hmk
    refine ⟨n, sc, cx1, child, _, _, [], fun _ => rfl, h1, rfl, h2, rfl, ?_⟩
    simp only [visit, dummyStep, hn, if_true, he, Bool.false_eq_true, if_false, bears_any ha,
      List.append_nil]
    exact h3

/-- C48 for expression statements. -/
theorem C48_stmt (env : Env) (f : Nat) (vk : VK) (sc : Scope) (cx : Cx) (semi : Bool) (as : List Attr)
    (n : Node) (a : Attr) (toks : List Tok) (traits : List Path) (mk : Option Ident) (hcx : cx.errs = [])
    (ha : bears a n) (hf : a.form = .list toks)
    (hargs : IsArgs toks traits mk) (hmk : ∀ i, mk = some i → i ∉ cx.markers) :
    ExpandedApart env f vk cx.markers n a toks semi
      (visit env (f + 1) vk sc cx (.mk (.sExpr semi) as [n])).1.errs := by
  have he : cx.hasError = false := by simp [Cx.hasError, hcx]
  cases vk with
  | visitor =>
    obtain ⟨sc1, cx0, cx1, child, es, -, h1, h2, h3⟩ :=
      visitExpr_errors (env := env) (rec := visit env f) (sc := sc) (semi := semi) hcx ha hf hargs hmk
    refine ⟨_, sc1, cx1, child, _, _, es, ?_, h1, rfl, h2, rfl, ?_⟩
    · rintro (h | ⟨h4, h5⟩)
      · cases h
      · exact visitMode_elsewhere _ _ h4 h5
    · simp only [visit, visitorStep, Node.kind, Kind.isExpr, Kind.isStmt, if_true, visitStmt, he,
        Bool.false_eq_true, if_false]
      exact h3
  | dummy =>
    have : ∀ cx' : Cx, cx'.errs = [] → cx'.markers = cx.markers → _ := fun cx' h1 h2 =>
      vsVisitExpr_errors (env := env) (rec := visit env f) (vk := .dummy)
        (sc := sc) (cx := cx') (semi := semi) h1 ha hf hargs (by rw [h2]; exact hmk)
    obtain ⟨cx1, child, h1, h2, h3⟩ := this (if (Node.mk (.sExpr semi) as [n]).anyAttr NAME
      then { cx with hasChild := true } else cx) (by split <;> exact hcx) (by split <;> rfl)
    refine ⟨n, sc, cx1, child, _, _, [], fun _ => rfl, h1, rfl, ?_, rfl, ?_⟩
    · rw [← h2]; congr 1; split <;> rfl
    · simp only [visit, dummyStep, Node.kind, Kind.isExpr, Kind.isStmt, if_true, he,
        Bool.false_eq_true, if_false, vsVisitStmt, List.append_nil]
      exact h3

/-- C48 for `let` statements. -/
theorem C48_let (env : Env) (f : Nat) (vk : VK) (sc : Scope) (cx : Cx) (p : LetPat) (as : List Attr)
    (ks : List Node) (a : Attr) (toks : List Tok) (traits : List Path) (mk : Option Ident)
    (hcx : cx.errs = []) (ha : bears a (.mk (.sLocal p) as ks)) (hf : letArgs a.form = some toks)
    (hargs : IsArgs toks traits mk) (hmk : ∀ i, mk = some i → i ∉ cx.markers) :
    ∃ (sc1 : Scope) (cx1 child : Cx) (region inner : Cx × Node),
      cx1.errs = [] ∧
      region = visitLocal (visit env f) vk sc1 cx1 (without (.mk (.sLocal p) as ks)) ∧
      Cx.new (env.hash (without (.mk (.sLocal p) as ks))) toks false cx.markers [] = .ok child ∧
      inner = expandParentStmt env (visit env f) child region.2 ∧
      (visit env (f + 1) vk sc cx (.mk (.sLocal p) as ks)).1.errs = region.1.errs ++ inner.1.errs := by
  have he : cx.hasError = false := by simp [Cx.hasError, hcx]
  have hne := bears_any ha
  cases vk with
  | visitor =>
    obtain ⟨cx1, child, h1, h2, h3⟩ := vsVisitStmt_errors (env := env) (rec := visit env f) (vk := .visitor)
      (sc := { sc with foreign := true }) (cx := { cx with hasChild := true }) hcx ha hf hargs hmk
    refine ⟨{ sc with foreign := true }, cx1, child, _, _, h1, rfl, h2, rfl, ?_⟩
    simp only [visit, visitorStep, Node.kind, Kind.isExpr, Kind.isStmt, if_true, visitStmt, he, hne,
      Bool.false_eq_true, if_false]
    exact h3
  | dummy =>
    obtain ⟨cx1, child, h1, h2, h3⟩ := vsVisitStmt_errors (env := env) (rec := visit env f) (vk := .dummy)
      (sc := sc) (cx := { cx with hasChild := true }) hcx ha hf hargs hmk
    refine ⟨sc, cx1, child, _, _, h1, rfl, h2, rfl, ?_⟩
    simp only [visit, dummyStep, Node.kind, Kind.isExpr, Kind.isStmt, if_true, he, hne,
      Bool.false_eq_true, if_false]
    exact h3

/-- The hypotheses of `C48_let`. -/
example : letArgs (.list Ex.iterator) = some Ex.iterator ∧
    bears ⟨.ofIdents [NAME], .list Ex.iterator⟩
      (.mk (.sLocal (.plain "y")) [⟨.ofIdents [NAME], .list Ex.iterator⟩] [Ex.lit "2"]) :=
  ⟨rfl, rfl, [], [], rfl, by decide, by simp⟩

/-- C48: in particular, if the inner attribute finds no error of its own and fewer than two branches (and,
if none at all, no further inner attribute), then its `two or more` error is among the errors afterwards,
and so are those of the region. -/
theorem C48_two (env : Env) (f : Nat) (vk : VK) (ms : List String) (n : Node) (a : Attr) (toks : List Tok)
    (semi : Bool) (out : List Err) (h : ExpandedApart env f vk ms n a toks semi out) (traits : List Path)
    (mk : Option Ident) (hargs : IsArgs toks traits mk) (ht : traits ≠ []) :
    ∃ (child : Cx) (region own : Cx × Node), child.errs = [] ∧
      own = expandExpr env (visit env f) child region.2 ∧ region.1.errs ⊆ out ∧ own.1.errs ⊆ out ∧
      (own.1.errs = [] → own.1.variants.length = 1 ∨ own.1.variants = [] ∧ own.1.hasChild = false →
        .twoOrMore own.1.lastMode (!own.1.variants.isEmpty) ∈ out) := by
  obtain ⟨n1, sc1, cx1, child, region, inner, es, -, -, -, h1, h2, h3⟩ := h
  obtain ⟨m, h4, -, -, -, -, h5, -⟩ := new_args h1
  have h6 : child.args = traits := by
    rw [(parseArgs_iff _ _ _).mpr hargs] at h4
    cases h4
    rfl
  unfold expandParentExpr at h2
  dsimp only at h2
  generalize hc : (if semi = true then { child with lastMode := .never } else child) = child' at h2
  have h7 : child'.errs = [] ∧ child'.args = traits := by
    subst hc
    split
    · exact ⟨h5, h6⟩
    · exact ⟨h5, h6⟩
  have h8 : child'.isDummy = false := by
    simp [Cx.isDummy, h7.2, ht]
  rw [h8] at h2
  simp only [Bool.false_eq_true, if_false] at h2
  refine ⟨child', region, expandExpr env (visit env f) child' region.2, h7.1, rfl, ?_⟩
  have h9 : inner.1 = (expandExpr env (visit env f) child' region.2).1.build.1 := by
    rw [h2]
    unfold expandBuild
    dsimp only
    split <;> rename_i heq <;> rw [heq]
  generalize expandExpr env (visit env f) child' region.2 = own at h9
  subst h3
  refine ⟨fun e he => by simp [he], fun e he => ?_, fun he hv => ?_⟩
  · have : own.1.errs ⊆ inner.1.errs := by
      rw [h9]
      rcases build_cases own.1 with ⟨-, h⟩ | ⟨-, -, h⟩ | ⟨-, -, -, h⟩ | ⟨-, -, h⟩ <;> rw [h] <;>
        simp [Cx.error]
    simp [this he]
  · have : Err.twoOrMore own.1.lastMode (!own.1.variants.isEmpty) ∈ inner.1.errs := by
      rw [h9]
      rcases build_cases own.1 with ⟨h, -⟩ | ⟨-, -, h⟩ | ⟨-, h, h', -⟩ | ⟨-, h, -⟩
      · exact absurd he h
      · rw [h]; simp [Cx.error]
      · rcases hv with hv | ⟨-, hv⟩
        · rw [h] at hv; cases hv
        · rw [h'] at hv; cases hv
      · rcases hv with hv | ⟨hv, -⟩
        · omega
        · rw [hv] at h; simp at h
    simp [this]

/-- ```
#[auto_enum(Iterator, marker = m)]
{
    #[auto_enum(Iterator)]
    f(m!(..));      // the argument of `m!` is no expression
    match x { 0 => 1, _ => 2 }
}
``` -/
def Ex.bothErrors : Node := exprBlock [
  .mk (.sExpr true) [] [.mk .eCall [⟨.ofIdents [NAME], .list [.ident "Iterator"]⟩]
    [Ex.var "f", .mk (.eMacro (.ofIdents ["m"]) "..") [] []]],
  tailS (.mk .eMatch [] [Ex.var "x", Ex.arm "0" (Ex.lit "1"), Ex.arm "_" (Ex.lit "2")])]

/-- Both errors are reported: that in the region of the inner attribute, and that of the inner attribute
itself, which has no marker. -/
example : autoEnum Ex.env 20 5 [.ident "Iterator", .comma, .ident "marker", .eq, .ident "m"]
      (.expr Ex.bothErrors) =
    .errors [.markerParse, .twoOrMore .never false] := by decide +kernel

/-- The hypotheses of `C48_stmt` on the statement with the inner attribute. -/
example : ∃ (cx : Cx) (n : Node) (a : Attr) (toks : List Tok) (traits : List Path) (mk : Option Ident),
    Cx.new 5 [.ident "Iterator", .comma, .ident "marker", .eq, .ident "m"] true [] [] = .ok cx ∧
    Ex.bothErrors.kids.head? = some (.mk (.sExpr true) [] [n]) ∧ cx.errs = [] ∧ bears a n ∧
    a.form = .list toks ∧ IsArgs toks traits mk ∧ (∀ i, mk = some i → i ∉ cx.markers) ∧ traits ≠ [] :=
  ⟨_, _, ⟨.ofIdents [NAME], .list [.ident "Iterator"]⟩, _, [.ofIdents ["Iterator"]], none, rfl, rfl, rfl,
    ⟨rfl, [], [], rfl, by decide, by simp⟩, rfl, (parseArgs_iff _ _ _).mp rfl, by simp, by simp⟩

/-- The hypotheses of `C48_after`: a context with that error. -/
example : ∃ cx : Cx, cx.errs = [.markerParse] ∧
    Cx.new 5 [.ident "Iterator"] true [] [.markerParse] = .ok cx := ⟨_, rfl, rfl⟩

end AutoEnums
