import Verif.Lemmas.EvalDiverge
import Verif.Props.C05
import Verif.ExamplesRun

/-! # C25: branches skipped as diverging produce no value -/

namespace AutoEnums

open Spec

/-- C25, the test itself: under any interpretation of everything but control flow, an expression that
the macro takes for diverging never completes normally.  `tame` excludes what the claim excludes
(`#[never]`, the markers of this attribute and of the enclosing ones, and inner attributes) and what
makes it fail (`C25_fails`): labelled blocks with a `break` to them, and blocks ending in an item. -/
theorem C25_partial {B S : Type} (M : Machine B S) (en : Ident) (cx : Cx) (n : Node)
    (h : isUnreachable cx n = true) (ht : tame (cx.marker :: cx.markers) n = true) :
    NeverCompletes M en n :=
  fun f x s v s' => diverges_evals n h ht f x s v s'

theorem Spec.ArmsOf.never_completes {B S : Type} (M : Machine B S) {en m : String} {i : Nat}
    {arms arms' : List Node} (h : ArmsOf en m i arms arms') :
    Aligned (fun arm arm' => ∀ p as gs b as' gs' b', arm = .mk (.arm p) as (gs ++ [b]) →
      arm' = .mk (.arm p) as' (gs' ++ [b']) →
      marked "never" as = false → nestedIn arm = false → tame [m] b = true →
      (∀ (i : Nat) c, b' ≠ construct [] en ("__Variant" ++ toString i) c) → NeverCompletes M en b)
      arms arms' := by
  induction h with
  | nil => exact .nil
  | exempt h0 h1 h2 _ ih =>
    refine .cons (fun p as gs b as' gs' b' he _ hnv hne ht _ => ?_) ih
    injection he with e1 e2 e3
    obtain ⟨rfl, h4⟩ := List.append_inj' e3 rfl
    cases h4
    cases e1
    subst e2
    simp only [exemptArm, List.getLast?_concat, hnv, hne, Bool.false_or] at h0
    exact exempt_evals h0 ht
  | wrapped h1 _ _ ih =>
    refine .cons (fun p as gs b as' gs' b' _ he _ _ _ hn => ?_) ih
    injection he with e1 e2 e3
    obtain ⟨rfl, h4⟩ := List.append_inj' e3 rfl
    cases h4
    exact absurd rfl (hn _ _)

/-- C25, the effect: an arm of a `match` in result position whose body is left unwrapped although the arm
has neither `#[never]` nor `#[nested]` never completes, if its body is `tame`. -/
theorem C25_arms_partial {B S : Type} (M : Machine B S) (env : Env) (traits : List Path) (en : Ident)
    (m : String) (n out : Node) (h : Accepted env traits en m n out) (as : List Attr) (s : Node)
    (arms : List Node) (hb : Branches' en m n (.mk .eMatch as (s :: arms)))
    (harms : ∀ a ∈ arms, ∃ p as gs b, a = .mk (.arm p) as (gs ++ [b]) ∧ gs.length ≤ 1) :
    ∃ as' s' arms', resultIn out = .mk .eMatch as' (s' :: arms') ∧
      Aligned (fun arm arm' => ∀ p as gs b as' gs' b', arm = .mk (.arm p) as (gs ++ [b]) →
        arm' = .mk (.arm p) as' (gs' ++ [b']) →
        marked "never" as = false → nestedIn arm = false → tame [m] b = true →
        (∀ (i : Nat) c, b' ≠ construct [] en ("__Variant" ++ toString i) c) → NeverCompletes M en b)
        arms arms' := by
  obtain ⟨as', s', arms', h1, h2⟩ := C05 env traits en m n out h as s arms hb harms
  exact ⟨as', s', arms', h1, h2.never_completes M⟩

/-- The code of `match x { 0 => 'a: { break 'a 1 }, 1 => 2, _ => 3 }` after the expansion. -/
def Ex.labelOut : Node := exprBlock [
  .mk (.sItem (.genEnum "__Enum5" ["__Variant0", "__Variant1"]
      [("__Variant0", "__Variant0"), ("__Variant1", "__Variant1")] [.ofIdents ["Iterator"]])) [] [],
  tailS (.mk .eMatch [] [Ex.var "x",
    Ex.arm "0" (.mk (.eBlock (some "a")) [] [tailS (.mk (.eBreak (some "a")) [] [Ex.lit "1"])]),
    Ex.arm "1" (Ex.v 5 0 (Ex.lit "2")), Ex.arm "_" (Ex.v 5 1 (Ex.lit "3"))])]

/-- C25 fails without `tame`: a labelled block ending in a `break` out of it is taken for diverging
although it completes, so the arm is not wrapped and the value of the `match` is not one of the enum.  The
same goes for a block that ends in an item. -/
theorem C25_fails :
    autoEnum Ex.env 20 5 Ex.iterator (.expr Ex.labelIn) = .code Ex.labelOut ∧
    run Ex.machine "__Enum5" 9 Ex.labelIn "0" = some (.val (.base "1"), "0") ∧
    run Ex.machine "__Enum5" 9 Ex.labelOut "0" = some (.val (.base "1"), "0") ∧
    run Ex.machine "__Enum5" 9 Ex.labelOut "1" = some (.val (.inj "__Variant0" (.base "2")), "1") ∧
    ∃ out, autoEnum Ex.env 20 5 Ex.iterator (.expr Ex.itemIn) = .code out ∧
      decide (run Ex.machine "__Enum5" 9 Ex.itemIn "0" = some (.val (.base "()"), "0") ∧
        run Ex.machine "__Enum5" 9 out "0" = some (.val (.base "()"), "0") ∧
        run Ex.machine "__Enum5" 9 out "1" = some (.val (.inj "__Variant0" (.base "2")), "1")) = true :=
  ⟨by decide +kernel, by decide +kernel, by decide +kernel, by decide +kernel,
    Ex.of_check (by decide +kernel)⟩

/-- The hypotheses of `C25_partial` are met by
`match x { 0 => { y; return 1 } 1 => panic!(), 2 => (None?).map(), _ => 'a: { loop {}; break 'b } }`. -/
example : let n : Node := .mk .eMatch [] [Ex.var "x",
      Ex.arm "0" (exprBlock [semiS (Ex.var "y"), tailS (.mk .eReturn [] [Ex.lit "1"])]),
      Ex.arm "1" (.mk (.eMacro (.ofIdents ["panic"]) "") [] []),
      Ex.arm "2" (.mk (.eMethodCall "map") [] [.mk .eParen [] [.mk .eTry [] [Ex.var "None"]]]),
      Ex.arm "_" (.mk (.eBlock (some "a")) [] [semiS (.mk (.eBreak (some "b")) [] [])])]
    isUnreachable (plainCx "marker") n = true ∧
    tame ((plainCx "marker").marker :: (plainCx "marker").markers) n = true := by
  decide +kernel

/-- The hypotheses of `C25_arms_partial` are met by a function that ends in a `match` with an arm
`1 => panic!()`, and the conclusion says something about that arm. -/
example : Accepted Ex.env [.ofIdents ["Iterator"]] "__Enum5" "marker" Ex.fnIn Ex.fnOut ∧
    ∃ as s a1 as2 b2 a3,
      Branches' "__Enum5" "marker" Ex.fnIn (.mk .eMatch as [s, a1, .mk (.arm "1") as2 [b2], a3]) ∧
      marked "never" as2 = false ∧ nestedIn (.mk (.arm "1") as2 [b2]) = false ∧ tame ["marker"] b2 = true ∧
      ∀ (i : Nat) c, b2 ≠ construct [] "__Enum5" ("__Variant" ++ toString i) c := by
  refine ⟨Ex.fn_accepted, _, _, _, _, _, _,
    ⟨by decide +kernel, by decide +kernel, rfl, rfl, by decide +kernel, by decide +kernel⟩,
    by decide +kernel, by decide +kernel, by decide +kernel, ?_⟩
  intro i c h
  cases h

end AutoEnums
