import Verif.Props.C05
import Verif.Props.C06
import Verif.Props.C07
import Verif.Props.C08

/-! # C13: `#[never]` -/

namespace AutoEnums

open Spec

/-- The expression is annotated `#[never]`. -/
def Spec.neverExpr (e : Node) : Bool := isExpression e.kind && marked "never" e.rawAttrs

/-- The branches of an `if` chain. -/
def Spec.branchesOf : Node → List (List Node)
  | .mk .eIf _ [_, b] => [b.kids]
  | .mk .eIf _ [_, b, e] => b.kids :: branchesOf e
  | .mk (.eBlock _) _ ss => [ss]
  | _ => []
termination_by structural n => n

theorem exempt_never {m : String} {e : Node} (h : neverExpr e = true) : exempt m e = true := by
  obtain ⟨k, as, ks⟩ := e
  rw [neverExpr, Bool.and_eq_true] at h
  have : k.hasAttrs = true := by
    have h1 := h.1
    cases k <;> first | rfl | cases h1
  rw [exempt.eq_def]
  dsimp only
  rw [this, show marked "never" as = true from h.2]
  rfl

theorem Spec.ArmsOf.never {en m : String} {i : Nat} {arms arms' : List Node} (h : ArmsOf en m i arms arms') :
    Aligned (fun arm arm' => ∀ p as gs b, arm = .mk (.arm p) as (gs ++ [b]) →
      (marked "never" as = true ∨ neverExpr b = true) → settled b = true →
      ∃ as' gs' b', arm' = .mk (.arm p) as' (gs' ++ [b']) ∧ gs'.length = gs.length ∧ SameHead b b')
      arms arms' := by
  induction h with
  | nil => exact .nil
  | exempt _ h1 h2 _ ih =>
    refine .cons (fun p as gs b he hn hs => ?_) ih
    injection he with e1 e2 e3
    obtain ⟨rfl, h4⟩ := List.append_inj' e3 rfl
    cases h4
    cases e1
    exact ⟨_, _, _, rfl, h1, h2 hs⟩
  | wrapped h1 _ _ ih =>
    refine .cons (fun p as gs b he hn hs => ?_) ih
    injection he with e1 e2 e3
    obtain ⟨rfl, h4⟩ := List.append_inj' e3 rfl
    cases h4
    subst e2
    simp only [exemptArm, List.getLast?_concat, Bool.or_eq_false_iff] at h1
    rcases hn with hn | hn
    · rw [hn] at h1; simp at h1
    · rw [exempt_never hn] at h1; simp at h1

/-- C13, arms: an arm of a `match` in result position that is annotated `#[never]`, or whose body is, is
not wrapped.  (`SameHead` says in particular that a body that was no constructor call is none now.) -/
theorem C13_arms (env : Env) (traits : List Path) (en : Ident) (m : String) (n out : Node)
    (h : Accepted env traits en m n out) (as : List Attr) (s : Node) (arms : List Node)
    (hb : Branches' en m n (.mk .eMatch as (s :: arms)))
    (harms : ∀ a ∈ arms, ∃ p as gs b, a = .mk (.arm p) as (gs ++ [b]) ∧ gs.length ≤ 1) :
    ∃ as' s' arms', resultIn out = .mk .eMatch as' (s' :: arms') ∧
      Aligned (fun arm arm' => ∀ p as gs b, arm = .mk (.arm p) as (gs ++ [b]) →
        (marked "never" as = true ∨ neverExpr b = true) → settled b = true →
        ∃ as' gs' b', arm' = .mk (.arm p) as' (gs' ++ [b']) ∧ gs'.length = gs.length ∧ SameHead b b')
        arms arms' := by
  obtain ⟨as', s', arms', h1, h2⟩ := C05 env traits en m n out h as s arms hb harms
  exact ⟨as', s', arms', h1, h2.never⟩

/-- The branch `ss'`, which has been `ss`, is not wrapped if it ends in an expression with `#[never]`. -/
def Spec.NeverBranch (ss ss' : List Node) : Prop :=
  ∀ init as e, ss = init ++ [.mk (.sExpr false) as [e]] → neverExpr e = true → settled e = true →
    ss'.length = ss.length ∧ ∃ init' as' e', ss' = init' ++ [.mk (.sExpr false) as' [e']] ∧ SameHead e e'

theorem Spec.BlockOf.never {en m : String} {i j : Nat} {ss ss' : List Node} (h : BlockOf en m i ss j ss') :
    NeverBranch ss ss' := by
  intro init as e he hn hs
  cases h with
  | exempt _ h1 h2 => exact ⟨h1, h2 init as e he hs⟩
  | wrapped h1 =>
    subst he
    simp [exemptBlock, exempt_never hn] at h1

theorem Spec.ChainOf.never {en m : String} {i : Nat} {r r' : Node} (h : ChainOf en m i r r') :
    Aligned NeverBranch (branchesOf r) (branchesOf r') := by
  induction h with
  | last h1 h2 =>
    simp only [branchesOf, Node.kids]
    exact .cons h1.never (.cons h2.never .nil)
  | step h1 _ ih =>
    simp only [branchesOf, Node.kids]
    exact .cons h1.never ih

/-- C13, branches: a branch of an `if` chain in result position that ends in an expression annotated
`#[never]` is not wrapped. -/
theorem C13_branches (env : Env) (traits : List Path) (en : Ident) (m : String) (n out r : Node)
    (h : Accepted env traits en m n out) (hb : Branches' en m n r) (hc : isChain r = true) :
    Aligned NeverBranch (branchesOf r) (branchesOf (resultIn out)) :=
  (C06_partial env traits en m n out r h hb hc).2.never

/-- C13, `break`: in a loop in result position the value of a `break` that is annotated `#[never]`, or
is inside of an expression that is, is not wrapped (it may be a marker).

Partial as `C07_partial` is: for inputs without inner attributes and loops without `#[nested]`. -/
theorem C13_breaks_partial (env : Env) (traits : List Path) (en : Ident) (m : String) (n out : Node)
    (h : Accepted env traits en m n out) (hs : Simple en m n) (l : Option String) (as : List Attr)
    (body : Node) (hb : Branches en m n (.mk (.eLoop l) as [body]))
    (hn : hasNested [body] = false) :
    ∃ as' body', resultIn out = .mk (.eLoop l) as' [body'] ∧
      Aligned (fun a b => a.never = true → b.value = a.value ∨
        (a.value = some (.mac (macroPath m)) ∧ Constructs en b.value)) (breaksIn l body) (breaksIn l body') := by
  obtain ⟨as', body', h1, h2⟩ := C07_partial env traits en m n out h hs l as body hb hn
  refine ⟨as', body', h1, h2.imp fun a b hab hnev => ?_⟩
  have : a.ours m = false := by simp [Brk.ours, hnev]
  simpa [Brk.Fate, this] using hab

/-- C13, `break`, for loops that may contain `#[nested]`: the value of a `break` that is annotated
`#[never]` itself is not wrapped, whatever loop it leaves.  (`#[never]` around a `break` does not count if
the loop it leaves is inside of it and in result position because of `#[nested]`.)  Partial as
`C07_nested_partial` is. -/
theorem C13_nested_partial (env : Env) (traits : List Path) (en : Ident) (m : String) (n out : Node)
    (h : Accepted env traits en m n out) (hs : Simple en m n) (l : Option String) (as : List Attr)
    (body : Node) (hb : Branches en m n (.mk (.eLoop l) as [body])) :
    ∃ as' body', resultIn out = .mk (.eLoop l) as' [body'] ∧
      Aligned (fun a b => a.never = true → b.value = a.value ∨
        (a.value = some (.mac (macroPath m)) ∧ Constructs en b.value))
        (resultBreaks (jobOf en m n) l body) (breaksIn l body') := by
  obtain ⟨as', body', h1, h2⟩ := C07_nested_partial env traits en m n out h hs l as body hb
  refine ⟨as', body', h1, h2.imp fun a b hab hnev => ?_⟩
  have : a.ours m = false := by simp [Brk.ours, hnev]
  simpa [Brk.Fate, this] using hab

/-- C13, `return`: in a function returning `impl Trait` the value of a `return` that is annotated
`#[never]` is not wrapped. -/
theorem C13_returns (env : Env) (fuel h : Nat) (toks : List Tok) (traits : List Path)
    (marker : Option Ident) (ha : IsArgs toks traits marker) (ht : traits ≠ [])
    (name : String) (bs : List (Option Path)) (tks : List Ty) (as asb : List Attr) (ss : List Node)
    (inp out : Node) (hin : inp = .mk (.iFn name (some (.mk (.implTrait bs) tks))) as [.mk .block asb ss])
    (hrun : autoEnum env fuel h toks (.stmt inp) = .code out) :
    Aligned (fun a b => a.never = true → a.Kept b) (exits false {} inp) (exits false {} out) := by
  refine (C08_return env fuel h toks traits marker ha ht name bs tks as asb ss inp out hin hrun).imp
    fun a b hab hn => ?_
  have : a.ours (marker.getD "marker") = false := by simp [Exit.ours, hn]
  simpa [Exit.RetFate, this] using hab

/-! ## Where it fails -/

/-- `#[auto_enum(Iterator)]` on an inner expression. -/
def Ex.innerAttr : Attr := ⟨.ofIdents ["auto_enum"], .list Ex.iterator⟩

/-- ```
loop {
    let y = #[auto_enum(Iterator)] match z { 0 => 1, 1 => 2, _ => #[never] break 7 };
    if c { break 8; }
    break y;
}
``` -/
def Ex.depthLoop (as : List Attr) : Node := .mk (.eLoop none) as [.mk .block [] [
  .mk (.sLocal (.plain "y")) [] [.mk .eMatch [Ex.innerAttr] [Ex.var "z", Ex.arm "0" (Ex.lit "1"),
    Ex.arm "1" (Ex.lit "2"), Ex.arm "_" (.mk (.eBreak none) [Ex.helper "never"] [Ex.lit "7"])]],
  semiS (.mk .eIf [] [Ex.var "c", .mk .block [] [semiS (.mk (.eBreak none) [] [Ex.lit "8"])]]),
  semiS (.mk (.eBreak none) [] [Ex.var "y"])]]

/-- `{ let x = #[auto_enum(Iterator)] loop { .. }; match w { 0 => 1, 1 => 2 } }` -/
def Ex.depthIn : Node := exprBlock [
  .mk (.sLocal (.plain "x")) [] [Ex.depthLoop [Ex.innerAttr]],
  tailS (.mk .eMatch [] [Ex.var "w", Ex.arm "0" (Ex.lit "1"), Ex.arm "1" (Ex.lit "2")])]

/-- `break 7` under `#[never]`, in the input of an inner attribute in a loop.  An attribute on the loop
leaves it alone.  But if the loop is itself an inner expression of another attribute, then the innermost
attribute is expanded before the loop is looked at (`visitor.rs:324-343`: kids first), `#[never]` is
gone by then, and the loop's attribute wraps the value. -/
theorem C13_depth_fails :
    (∃ out, autoEnum Ex.env 30 5 Ex.iterator (.expr (Ex.depthLoop [])) = .code out ∧
      ((breaksIn none out).map (·.value)).contains (some .other) = true) ∧
    ∃ out, autoEnum Ex.env 30 5 Ex.iterator (.expr Ex.depthIn) = .code out ∧
      ((breaksIn none out).all fun b => match b.value with | some (.call _) => true | _ => false) = true :=
  ⟨Ex.of_check (by decide +kernel), Ex.of_check (by decide +kernel)⟩

/-! ## Cases that meet the hypotheses -/

/-- `#[never] e` -/
def Ex.never (s : String) : Node := .mk (.eLit s) [Ex.helper "never"] []

/-- ```
fn f() -> impl Iterator {
    if c { #[never] return 1; }
    match a { 0 => 2, #[never] 1 if g => 3, 2 => #[never] 4, _ => 5 }
}
``` -/
def Ex.neverArms : List Node := [Ex.arm "0" (Ex.lit "2"),
  .mk (.arm "1") [Ex.helper "never"] [Ex.var "g", Ex.lit "3"], Ex.arm "2" (Ex.never "4"), Ex.arm "_" (Ex.lit "5")]
def Ex.neverIn : Node := .mk (.iFn "f" (some Ex.implIter)) [] [.mk .block []
  [semiS (.mk .eIf [] [Ex.var "c", .mk .block [] [semiS (.mk .eReturn [Ex.helper "never"] [Ex.lit "1"])]]),
   tailS (.mk .eMatch [] (Ex.var "a" :: Ex.neverArms))]]

example : ∃ out, autoEnum Ex.env 20 5 Ex.iterator (.stmt Ex.neverIn) = .code out ∧
    Accepted Ex.env [.ofIdents ["Iterator"]] "__Enum5" "marker" Ex.neverIn out ∧
    Branches' "__Enum5" "marker" Ex.neverIn (.mk .eMatch [] (Ex.var "a" :: Ex.neverArms)) ∧
    (∀ a ∈ Ex.neverArms, ∃ p as gs b, a = .mk (.arm p) as (gs ++ [b]) ∧ gs.length ≤ 1) ∧
    neverExpr (Ex.never "4") = true ∧ settled (Ex.never "4") = true ∧ settled (Ex.lit "3") = true ∧
    (exits false {} Ex.neverIn).map (·.never) = [true] := by
  obtain ⟨out, h, _⟩ := Ex.of_check (o := autoEnum Ex.env 20 5 Ex.iterator (.stmt Ex.neverIn))
    (p := fun _ => true) (by decide +kernel)
  refine ⟨out, h, Ex.accepted_stmt rfl h, ⟨by decide +kernel, by decide +kernel, rfl, rfl,
    by decide +kernel, by decide +kernel⟩, ?_, rfl, rfl, rfl, by decide +kernel⟩
  intro a ha
  simp only [Ex.neverArms, List.mem_cons, List.not_mem_nil, or_false] at ha
  rcases ha with rfl | rfl | rfl | rfl
  · exact ⟨_, _, [], _, rfl, by simp⟩
  · exact ⟨_, _, [_], _, rfl, by simp⟩
  · exact ⟨_, _, [], _, rfl, by simp⟩
  · exact ⟨_, _, [], _, rfl, by simp⟩

/-- `if c { 1 } else if d { y; #[never] 2 } else { 3 }` -/
def Ex.neverIf : Node := .mk .eIf [] [Ex.var "c", .mk .block [] [tailS (Ex.lit "1")],
  .mk .eIf [] [Ex.var "d", .mk .block [] [semiS (Ex.var "y"), tailS (Ex.never "2")],
    exprBlock [tailS (Ex.lit "3")]]]

example : ∃ out, Accepted Ex.env [.ofIdents ["Iterator"]] "__Enum5" "marker" Ex.neverIf out ∧
    Branches' "__Enum5" "marker" Ex.neverIf Ex.neverIf ∧ isChain Ex.neverIf = true ∧
    (branchesOf Ex.neverIf)[1]? = some [semiS (Ex.var "y"), tailS (Ex.never "2")] ∧
    (branchesOf (resultIn out))[1]? = some [semiS (Ex.var "y"), tailS (Ex.lit "2")] := by
  obtain ⟨out, h, hp⟩ := Ex.of_check (o := autoEnum Ex.env 20 5 Ex.iterator (.expr Ex.neverIf))
    (p := fun out => decide ((branchesOf (resultIn out))[1]? = some [semiS (Ex.var "y"), tailS (Ex.lit "2")]))
    (by decide +kernel)
  exact ⟨out, Ex.accepted_expr rfl h, ⟨by decide +kernel, by decide +kernel, rfl, rfl,
    by decide +kernel, by decide +kernel⟩, by decide +kernel, rfl, by simpa using hp⟩

/-- The hypotheses of `C13_breaks_partial` are those of `C07_partial`; in the example given there some
`break`s are under `#[never]`. -/
example : (breaksIn (some "a") Ex.loopBody).any (·.never) = true := by decide +kernel

/-- ```
'a: loop {
    #[nested] let x = loop { if c { #[never] break 'a 1 } #[never] break 2; break 3 };
    break x
}
``` -/
def Ex.neverBody : Node := .mk .block [] [
  .mk (.sLocal (.plain "x")) [Ex.helper "nested"] [.mk (.eLoop none) [] [.mk .block [] [
    tailS (.mk .eIf [] [Ex.var "c", .mk .block [] [tailS (.mk (.eBreak (some "a")) [Ex.helper "never"]
      [Ex.lit "1"])]]),
    semiS (.mk (.eBreak none) [Ex.helper "never"] [Ex.lit "2"]), tailS (Ex.brk none "3")]]],
  tailS (.mk (.eBreak none) [] [Ex.var "x"])]

def Ex.neverLoop : Node := .mk (.eLoop (some "a")) [] [Ex.neverBody]

/-- The hypotheses of `C13_nested_partial` are met by this loop, of whose four `break`s two are annotated;
the others are wrapped. -/
example : ∃ out, Accepted Ex.env [.ofIdents ["Iterator"]] "__Enum5" "marker" Ex.neverLoop out ∧
    Simple "__Enum5" "marker" Ex.neverLoop ∧
    Branches "__Enum5" "marker" Ex.neverLoop (.mk (.eLoop (some "a")) [] [Ex.neverBody]) ∧
    hasNested [Ex.neverBody] = true ∧
    (resultBreaks (jobOf "__Enum5" "marker" Ex.neverLoop) (some "a") Ex.neverBody).map (·.never) =
      [true, true, false, false] ∧
    (resultBreaks (jobOf "__Enum5" "marker" Ex.neverLoop) (some "a") Ex.neverBody).map
      (Brk.ours "marker") = [false, false, true, true] := by
  obtain ⟨out, h, _⟩ := Ex.of_check (o := autoEnum Ex.env 20 5 Ex.iterator (.expr Ex.neverLoop))
    (p := fun _ => true) (by decide +kernel)
  exact ⟨out, Ex.accepted_expr rfl h, ⟨by decide +kernel, by decide +kernel, by decide +kernel⟩,
    ⟨by decide +kernel, rfl, rfl, by decide +kernel⟩, by decide +kernel, by decide +kernel,
    by decide +kernel⟩

/-- In a loop that contains `#[nested]` it does not suffice that an expression around the `break` is
annotated: in `#[never] { 'b: loop { .. #[nested] loop { break 5; .. } } }` the value of the fifth `break`
of this loop is wrapped. -/
theorem C13_around_fails : (breaksIn (some "a") Ex.nestedLoopBody)[4]?.map (·.never) = some true ∧
    ∃ out, autoEnum Ex.env 20 5 Ex.iterator (.expr Ex.nestedLoopIn) = .code out ∧
      (match resultIn out with
        | .mk (.eLoop _) _ [b] => (breaksIn (some "a") b)[4]?.map (·.value) ==
            some (some (.call (variantPath "__Enum5" "__Variant3")))
        | _ => false) = true :=
  ⟨by decide +kernel, Ex.of_check (by decide +kernel)⟩

end AutoEnums
