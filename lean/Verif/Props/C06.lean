import Verif.Lemmas.Missing
import Verif.Props.C18
import Verif.Props.C03
import Verif.ExamplesAccepted

/-! # C06: `if` chains in result position -/

namespace AutoEnums

open Spec

/-- C06, the branches: if the value of an input is that of an `if` chain, then the chain has a final
`else`, and the value of the expansion is that of a chain with the same branches in the same order, in
which the branches that are not exempt, and no others, are wrapped, as whole blocks and once each, in
consecutive variants.

Partial, since the rule by which branches are exempt is not always that of `match` arms: see
`C06_rule` and `C06_fails`. -/
theorem C06_partial (env : Env) (traits : List Path) (en : Ident) (m : String) (n out r : Node)
    (h : Accepted env traits en m n out) (hb : Branches' en m n r) (hc : isChain r = true) :
    hasElse r = true ∧ ChainOf en m 0 r (resultIn out) := by
  obtain ⟨sc, semi, cx, cx1, cx2, hf, hroot, hv, rfl, rfl, hn, hx, hcl, hclean, hr⟩ := h.reached hb
  have hk := isChain_kind hc
  have he : childExpr cx r = visitIf cx r := by
    obtain ⟨k, as, ks⟩ := r
    cases hk
    rw [childExpr.eq_def]
    simp only [hv, exempt_eq hroot, hx, Bool.not_true, Bool.or_self, Bool.false_eq_true, if_false]
  rw [he] at hr hclean
  have h1 : hasElse r = true := by
    have := visitIf_errs r cx hc
    rw [hclean.1] at this
    cases hh : hasElse r with
    | true => rfl
    | false => simp [hh] at this
  obtain ⟨h2, h3⟩ := clearWay_attrs hcl
  refine ⟨h1, ?_⟩
  have := chain_of r hf hroot hc h1 h2 h3 hr
  rw [hn] at this
  exact this

/-- C06, the rule: a branch is exempt iff an arm of a `match` with this block as its body would be,
provided that the branch ends in an expression or contains no `#[nested]`. -/
theorem C06_rule (m p : String) (ss : List Node)
    (h : (∃ init as e, ss = init ++ [.mk (.sExpr false) as [e]]) ∨ nestedInL ss = false) :
    exemptBlock m ss = exemptArm m (.mk (.arm p) [] [.mk (.eBlock none) [] ss]) := by
  have hlast : ∀ init s, exemptLast m (init ++ [s]) = exemptLast m [s] := by
    intro init s
    induction init with
    | nil => rfl
    | cons a l ih =>
      cases l with
      | nil => simp only [List.cons_append, List.nil_append, exemptLast]
      | cons b l => simpa only [List.cons_append, exemptLast] using ih
  have harm : exemptArm m (.mk (.arm p) [] [.mk (.eBlock none) [] ss]) =
      (nestedInL ss || exemptLast m ss) := by
    simp only [exemptArm, List.getLast?_singleton]
    rw [exempt.eq_def]
    simp [nestedIn, nestedInL, marked, inner, hidesCode]
  rw [harm]
  rcases Classical.em (∃ init as e, ss = init ++ [.mk (.sExpr false) as [e]]) with
    ⟨init, as, e, rfl⟩ | hne
  · rw [hlast]
    simp [exemptBlock, exemptLast, Bool.or_comm]
  · have hn := h.resolve_left hne
    rw [hn, Bool.false_or]
    unfold exemptBlock
    split
    · rename_i as e hl
      obtain ⟨init, rfl⟩ := List.getLast?_eq_some_iff.mp hl
      exact absurd ⟨init, as, e, rfl⟩ hne
    · rfl

/-- `{ #[nested] match a { 0 => 1, _ => 2 }; }` -/
def Ex.nestedStmts : List Node := [semiS (.mk .eMatch [Ex.helper "nested"]
  [Ex.var "a", Ex.arm "0" (Ex.lit "1"), Ex.arm "_" (Ex.lit "2")])]

/-- The rule differs for branches that end in a statement: `{ #[nested] match a {..}; }` is wrapped as a
branch of an `if` but not as the body of an arm (`expr.rs:116-126`). -/
theorem C06_fails :
    ∃ ss, (∃ out, autoEnum Ex.env 20 5 Ex.iterator (.expr (.mk .eIf [] [Ex.var "c", .mk .block [] ss,
        exprBlock [tailS (Ex.lit "3")]])) = .code out ∧
        (match resultIn out with
          | .mk .eIf _ [_, .mk .block _ [.mk (.sExpr false) _ [.mk .eCall _ [f, .mk (.eBlock _) _ _]]], _] =>
            f == pathE (.ofIdents ["__Enum5", "__Variant0"])
          | _ => false) = true) ∧
      (∃ out, autoEnum Ex.env 20 5 Ex.iterator (.expr (.mk .eMatch [] [Ex.var "c",
        Ex.arm "0" (exprBlock ss), Ex.arm "_" (exprBlock [tailS (Ex.lit "3")])])) = .code out ∧
        (match resultIn out with
          | .mk .eMatch _ [_, .mk (.arm _) _ [.mk (.eBlock _) _ [.mk (.sExpr true) _ _]], _] => true
          | _ => false) = true) :=
  ⟨Ex.nestedStmts, Ex.of_check (by decide +kernel), Ex.of_check (by decide +kernel)⟩

/-- C06, the report: if the value of the input is that of an `if` chain without a final `else`, then
the error is reported; if the chain has one and there are no inner attributes and no `#[nested]`, the
error is not reported. -/
theorem C06_else (env : Env) (h : Nat) (toks : List Tok) (traits : List Path) (marker : Option Ident)
    (ha : IsArgs toks traits marker) (ht : traits ≠ []) (input : Input) (n r : Node)
    (hin : input = .expr n ∧ isExprNode n = true ∨ input = .stmt n ∧ isExprNode n = false)
    (hvalid : elseOk n = true)
    (hb : Branches' ("__Enum" ++ toString h) (marker.getD "marker") n r) (hc : isChain r = true) :
    ∃ F, (hasElse r = false →
        ∃ es, Err.missingElse ∈ es ∧ ∀ f, F ≤ f → autoEnum env f h toks input = .errors es) ∧
      (hasElse r = true → (∀ a ∈ allAttrs n, named "auto_enum" a = false ∧ named "nested" a = false) →
        ∀ f es, F ≤ f → autoEnum env f h toks input = .errors es → Err.missingElse ∉ es) := by
  obtain ⟨F, hF⟩ := C19 env h toks input (by
    intro n' hn'
    rcases hin with ⟨rfl, _⟩ | ⟨rfl, _⟩ <;> rcases hn' with h1 | h1 <;> cases h1 <;> exact hvalid)
  refine ⟨F, ?_⟩
  cases hcx : Cx.new h toks true [] [] with
  | error e =>
    unfold Cx.new at hcx
    rw [(parseArgs_iff _ _ _).mpr ha] at hcx
    cases marker <;> simp at hcx
  | ok cx =>
    obtain ⟨_, p1, p2, p3, _, p4, p6, p7, p8⟩ := new_args hcx
    have hf := new_fresh hcx
    rw [(parseArgs_iff _ _ _).mpr ha] at p1
    cases p1
    have e1 : "__Enum" ++ toString h = cx.ident := by rw [p2]; rfl
    have e2 : marker.getD "marker" = cx.marker := by rw [p3]; rfl
    rw [e1, e2] at hb
    have hre := hb.result
    subst hre
    have key : ∀ f x, expandInput env f cx input = some x →
        Tells (Bare n) (hasElse (resultOf (startOf n))) x.1 := fun f x hx =>
      expandInput_tells hin hx hf p4 ht p6 hc hb.counts hb.clear hb.shaped hb.job
    have hsome : ∀ f, ∃ x, expandInput env f cx input = some x := by
      intro f
      rcases hin with ⟨rfl, _⟩ | ⟨rfl, _⟩ <;> exact ⟨_, rfl⟩
    have herr : ∀ f es, autoEnum env f h toks input = .errors es →
        ∃ x, expandInput env f cx input = some x ∧ es = x.1.errs := by
      intro f es hes
      obtain ⟨x, hx⟩ := hsome f
      refine ⟨x, hx, ?_⟩
      simp only [autoEnum, hcx, hx, finish] at hes
      split at hes
      · split at hes
        · cases hes
        · cases hes; rfl
      · cases hes
    constructor
    · intro he
      rcases hF with ⟨out, ho⟩ | ⟨es, ho⟩
      · obtain ⟨cx1, cx', h1, h2, h3, _⟩ := autoEnum_code (ho F (Nat.le_refl F))
        rw [hcx] at h1
        cases h1
        have := (key F _ h2).1 he
        simp [h3] at this
      · obtain ⟨x, hx, rfl⟩ := herr F _ (ho F (Nat.le_refl F))
        exact ⟨_, (key F x hx).1 he, ho⟩
    · intro he hn f es hle hes
      obtain ⟨x, hx, rfl⟩ := herr f es hes
      exact (key f x hx).2 ⟨names_zero fun a h => (hn a h).1, nests_zero fun a h => (hn a h).2⟩ he

/-- ```
fn f() -> impl Iterator {
    if c { y; 1 } else if d { panic!() } else { 2 }
}
``` -/
def Ex.ifBody : Node := .mk .eIf [] [Ex.var "c", .mk .block [] [semiS (Ex.var "y"), tailS (Ex.lit "1")],
  .mk .eIf [] [Ex.var "d", .mk .block [] [tailS (.mk (.eMacro (.ofIdents ["panic"]) "") [] [])],
    exprBlock [tailS (Ex.lit "2")]]]
def Ex.ifIn : Node := .mk (.iFn "f" (some Ex.implIter)) [] [.mk .block [] [tailS Ex.ifBody]]

/-- The hypotheses of `C06_partial` are met by `Ex.ifIn`, whose second branch is exempt. -/
example : ∃ out, Accepted Ex.env [.ofIdents ["Iterator"]] "__Enum5" "marker" Ex.ifIn out ∧
    Branches' "__Enum5" "marker" Ex.ifIn Ex.ifBody ∧ isChain Ex.ifBody = true ∧
    exemptBlock "marker" [tailS (.mk (.eMacro (.ofIdents ["panic"]) "") [] [])] = true := by
  obtain ⟨out, h, _⟩ := Ex.of_check (o := autoEnum Ex.env 20 5 Ex.iterator (.stmt Ex.ifIn))
    (p := fun _ => true) (by decide +kernel)
  exact ⟨out, Ex.accepted_stmt rfl h, ⟨by decide +kernel, by decide +kernel, rfl, rfl,
    by decide +kernel, by decide +kernel⟩, by decide +kernel, by decide +kernel⟩

/-- The hypotheses of `C06_rule` are met by the first branch, which is not exempt. -/
example : (∃ init as e, [semiS (Ex.var "y"), tailS (Ex.lit "1")] = init ++ [.mk (.sExpr false) as [e]]) ∧
    exemptBlock "marker" [semiS (Ex.var "y"), tailS (Ex.lit "1")] = false :=
  ⟨⟨[_], [], _, rfl⟩, by decide +kernel⟩

/-- The hypotheses of `C06_else` are met by `if c { 1 } else if d { 2 }` and by `Ex.ifIn`. -/
example : IsArgs Ex.iterator [.ofIdents ["Iterator"]] none ∧
    (∃ n r, isExprNode n = true ∧ elseOk n = true ∧
      Branches' ("__Enum" ++ toString 5) ((none : Option Ident).getD "marker") n r ∧
      isChain r = true ∧ hasElse r = false) ∧
    isExprNode Ex.ifIn = false ∧ elseOk Ex.ifIn = true ∧ isChain Ex.ifBody = true ∧
    hasElse Ex.ifBody = true ∧
    ∀ a ∈ allAttrs Ex.ifIn, named "auto_enum" a = false ∧ named "nested" a = false := by
  refine ⟨Ex.iterator_args, ⟨.mk .eIf [] [Ex.var "c", .mk .block [] [tailS (Ex.lit "1")],
    .mk .eIf [] [Ex.var "d", .mk .block [] [tailS (Ex.lit "2")]]], _, rfl, by decide +kernel,
    ⟨by decide +kernel, by decide +kernel, rfl, rfl, by decide +kernel, by decide +kernel⟩,
    by decide +kernel, by decide +kernel⟩, rfl, by decide +kernel, by decide +kernel,
    by decide +kernel, by decide +kernel⟩

end AutoEnums
