import Verif.Lemmas.Nested
import Verif.Props.C05
import Verif.Props.C06

/-! # C14: `#[nested]` -/

namespace AutoEnums

open Spec

theorem Treats.nestedBranches (b : Bool) (traits : List Path) (en : Ident) (m : String) (n out : Node)
    (h : Treats b traits en m n out) (hs : Simple en m n) (hb : (jobOf en m n).branches = true)
    (e : Node) (he : NestedAt e (startOf n)) (hd : diverges m e = false)
    (hr : isBranching (resultOf e).kind = true) :
    ∃ e', Within e' out ∧ Branched en m (resultOf e) (resultOf e') := by
  obtain ⟨w, ts, e', h1, h2⟩ := h.nested hs hb he
  refine ⟨e', h1, ?_⟩
  have hm := jobOf_marker en m n
  have hen : (jobOf en m n).en = en := jobOf_en en m n
  obtain ⟨ts', _, h3⟩ := resultOf_treatP hb (w := w) (P := fun _ => True) (fun _ _ _ _ _ _ => trivial) e ts
    trivial (by rw [hm]; exact hd) hr
  have h4 : Alike en (resultOf e') (treat (jobOf en m n) w ts' .result (resultOf e)) := by
    rw [← h3]
    unfold Alike at *
    rw [← resultOf_blur, ← resultOf_blur, h2]
  have hw := (resultOf_within e hr).trans (NestedAt.within he)
  have := branched (J := jobOf en m n) hb (by rw [hm]; exact diverges_resultOf e hr hd) hr
    (grammatical_within hw (ordinary_grammatical hs.ordinary))
    (fun l hl => by rw [hen]; exact hs.start l (labels_within hw l hl)) (by rw [hen]; exact h4)
  rw [hm, hen] at this
  exact this

/-- C14, the annotated expression: wherever `#[nested]` is used for an expression that is not skipped
and whose value is that of a `match`, `if` or `loop`, the expansion contains what this becomes, and its
branches are wrapped by the same rules as those of an expression in result position.

Partial: for inputs without inner attributes that have no `#[nested]` on expressions that are in result
position anyhow (`C14_twice_fails`); see `C06_fails` and `C14_break_fails` for branches that are wrapped
although they contain `#[nested]`. -/
theorem C14_partial (env : Env) (traits : List Path) (en : Ident) (m : String) (n out : Node)
    (h : Accepted env traits en m n out) (hs : Simple en m n) (hb : (jobOf en m n).branches = true)
    (e : Node) (he : NestedAt e (startOf n)) (hd : diverges m e = false)
    (hr : isBranching (resultOf e).kind = true) :
    ∃ e', Within e' out ∧ Branched en m (resultOf e) (resultOf e') :=
  (h.treats hs).nestedBranches _ _ _ _ _ _ hs hb e he hd hr

theorem Spec.ArmsOf.nested {en m : String} {i : Nat} {arms arms' : List Node} (h : ArmsOf en m i arms arms') :
    Aligned (fun arm arm' => nestedIn arm = true →
      ∃ p as gs b as' gs' b', arm = .mk (.arm p) as (gs ++ [b]) ∧ arm' = .mk (.arm p) as' (gs' ++ [b']) ∧
        (settled b = true → SameHead b b')) arms arms' := by
  induction h with
  | nil => exact .nil
  | exempt _ _ h2 _ ih => exact .cons (fun _ => ⟨_, _, _, _, _, _, _, rfl, rfl, h2⟩) ih
  | wrapped h1 _ _ ih =>
    refine .cons (fun hn => ?_) ih
    rw [exemptArm, hn] at h1
    simp at h1

/-- C14, the branch around it: the arms of a `match` in result position that contain `#[nested]` are not
wrapped as a whole.  (For `if` this is part of `C06_partial`.) -/
theorem C14_arms (env : Env) (traits : List Path) (en : Ident) (m : String) (n out : Node)
    (h : Accepted env traits en m n out) (as : List Attr) (s : Node) (arms : List Node)
    (hb : Branches' en m n (.mk .eMatch as (s :: arms)))
    (harms : ∀ a ∈ arms, ∃ p as gs b, a = .mk (.arm p) as (gs ++ [b]) ∧ gs.length ≤ 1) :
    ∃ as' s' arms', resultIn out = .mk .eMatch as' (s' :: arms') ∧
      Aligned (fun arm arm' => nestedIn arm = true →
        ∃ p as gs b as' gs' b', arm = .mk (.arm p) as (gs ++ [b]) ∧
          arm' = .mk (.arm p) as' (gs' ++ [b']) ∧ (settled b = true → SameHead b b')) arms arms' := by
  obtain ⟨as', s', arms', h1, h2⟩ := C05 env traits en m n out h as s arms hb harms
  exact ⟨as', s', arms', h1, h2.nested⟩

/-! ## Where it fails -/

/-- The arms of an expression that is in result position and also annotated `#[nested]` are wrapped
twice.  (`expr.rs:11-59` wraps them, and again for `visitor.rs:132-140`.) -/
theorem C14_twice_fails :
    ∃ out, autoEnum Ex.env 20 5 Ex.iterator (.expr (.mk .eMatch [Ex.helper "nested"] [Ex.var "a",
        Ex.arm "0" (Ex.lit "1"), Ex.arm "_" (Ex.lit "2")])) = .code out ∧
      (match resultIn out with
        | .mk .eMatch [] [_, a1, a2] =>
          a1 == Ex.arm "0" (construct [] "__Enum5" "__Variant2" (construct [] "__Enum5" "__Variant0"
            (Ex.lit "1"))) &&
          a2 == Ex.arm "_" (construct [] "__Enum5" "__Variant3" (construct [] "__Enum5" "__Variant1"
            (Ex.lit "2")))
        | _ => false) = true :=
  Ex.of_check (by decide +kernel)

/-- The value of a `break` is wrapped although it contains `#[nested]`, whose branches are wrapped, too:
`loop { break #[nested] match a { 0 => 1, _ => 2 } }`.  (`expr.rs:182-187` does not look for `#[nested]`.) -/
theorem C14_break_fails :
    ∃ out, autoEnum Ex.env 20 5 Ex.iterator (.expr (.mk (.eLoop none) [] [.mk .block [] [tailS (.mk (.eBreak none) []
        [.mk .eMatch [Ex.helper "nested"] [Ex.var "a", Ex.arm "0" (Ex.lit "1"), Ex.arm "_" (Ex.lit "2")]])]])) =
        .code out ∧
      (resultIn out == .mk (.eLoop none) [] [.mk .block [] [tailS (.mk (.eBreak none) []
        [construct [] "__Enum5" "__Variant0" (.mk .eMatch [] [Ex.var "a",
          Ex.arm "0" (construct [] "__Enum5" "__Variant1" (Ex.lit "1")),
          Ex.arm "_" (construct [] "__Enum5" "__Variant2" (Ex.lit "2"))])])]]) = true :=
  Ex.of_check (by decide +kernel)

/-! ## A case that meets the hypotheses -/

/-- `#[nested] if c { 1 } else { 2 }` -/
def Ex.nestIf : Node := .mk .eIf [Ex.helper "nested"] [Ex.var "c", .mk .block [] [tailS (Ex.lit "1")],
  exprBlock [tailS (Ex.lit "2")]]
/-- `match b { 0 => 3, _ => panic!() }` -/
def Ex.nestMatch : Node := .mk .eMatch [] [Ex.var "b", Ex.arm "0" (Ex.lit "3"),
  Ex.arm "_" (.mk (.eMacro (.ofIdents ["panic"]) "") [] [])]
/-- `loop { break 4 }` -/
def Ex.nestLoop : Node := .mk (.eLoop none) [] [.mk .block [] [tailS (Ex.brk none "4")]]

/-- ```
fn f() -> impl Iterator {
    match a {
        0 => { y; #[nested] if c { 1 } else { 2 } }
        #[nested] 1 => match b { 0 => 3, _ => panic!() },
        2 => { #[nested] let x = loop { break 4 }; x }
        _ => 5,
    }
}
``` -/
def Ex.nestArm0 : Node := Ex.arm "0" (exprBlock [semiS (Ex.var "y"), tailS Ex.nestIf])
def Ex.nestArm1 : Node := .mk (.arm "1") [Ex.helper "nested"] [Ex.nestMatch]
def Ex.nestLet : Node := .mk (.sLocal (.plain "x")) [Ex.helper "nested"] [Ex.nestLoop]
def Ex.nestArm2 : Node := Ex.arm "2" (exprBlock [Ex.nestLet, tailS (Ex.var "x")])
def Ex.nestArms : List Node := [Ex.nestArm0, Ex.nestArm1, Ex.nestArm2, Ex.arm "_" (Ex.lit "5")]
def Ex.nestIn : Node := .mk (.iFn "f" (some Ex.implIter)) [] [.mk .block []
  [tailS (.mk .eMatch [] (Ex.var "a" :: Ex.nestArms))]]

/-- The hypotheses of `C14_partial` are met by each of these three uses of `#[nested]`. -/
example : (∃ out, Accepted Ex.env [.ofIdents ["Iterator"]] "__Enum5" "marker" Ex.nestIn out) ∧
    Simple "__Enum5" "marker" Ex.nestIn ∧ (jobOf "__Enum5" "marker" Ex.nestIn).branches = true ∧
    NestedAt Ex.nestIf (startOf Ex.nestIn) ∧ NestedAt Ex.nestMatch (startOf Ex.nestIn) ∧
    NestedAt Ex.nestLoop (startOf Ex.nestIn) ∧
    ∀ e ∈ [Ex.nestIf, Ex.nestMatch, Ex.nestLoop],
      diverges "marker" e = false ∧ isBranching (resultOf e).kind = true := by
  obtain ⟨out, h, _⟩ := Ex.of_check (o := autoEnum Ex.env 20 5 Ex.iterator (.stmt Ex.nestIn))
    (p := fun _ => true) (by decide +kernel)
  have hb : ∀ a ∈ Ex.nestArms, Within a (startOf Ex.nestIn) := fun a ha =>
    .kid rfl (List.mem_singleton.mpr rfl) (.kid rfl (List.mem_singleton.mpr rfl)
      (.one rfl (List.mem_cons_of_mem _ ha)))
  refine ⟨⟨out, Ex.accepted_stmt rfl h⟩, ⟨by decide +kernel, by decide +kernel, by decide +kernel⟩,
    by decide +kernel, ?_, ?_, ?_, by decide +kernel⟩
  · refine .expr ((?_ : Within _ Ex.nestArm0).trans (hb _ (by simp [Ex.nestArms]))) rfl rfl
    exact .kid rfl (List.mem_singleton.mpr rfl) (.kid (c := tailS Ex.nestIf) rfl (by simp)
      (.one rfl (by simp [Ex.nestIf])))
  · exact .arm (gs := []) (hb Ex.nestArm1 (by simp [Ex.nestArms])) rfl
  · refine .init (els := []) ((?_ : Within Ex.nestLet Ex.nestArm2).trans (hb _ (by simp [Ex.nestArms]))) rfl
    exact .kid rfl (List.mem_singleton.mpr rfl) (.one rfl (by simp))

/-- The hypotheses of `C14_arms` are met, too; the first three arms contain `#[nested]`. -/
example : (∃ out, Accepted Ex.env [.ofIdents ["Iterator"]] "__Enum5" "marker" Ex.nestIn out) ∧
    Branches' "__Enum5" "marker" Ex.nestIn (.mk .eMatch [] (Ex.var "a" :: Ex.nestArms)) ∧
    (∀ a ∈ Ex.nestArms, ∃ p as gs b, a = .mk (.arm p) as (gs ++ [b]) ∧ gs.length ≤ 1) ∧
    Ex.nestArms.map nestedIn = [true, true, true, false] := by
  obtain ⟨out, h, _⟩ := Ex.of_check (o := autoEnum Ex.env 20 5 Ex.iterator (.stmt Ex.nestIn))
    (p := fun _ => true) (by decide +kernel)
  refine ⟨⟨out, Ex.accepted_stmt rfl h⟩, ⟨by decide +kernel, by decide +kernel, rfl, rfl,
    by decide +kernel, by decide +kernel⟩, ?_, by decide +kernel⟩
  intro a ha
  simp only [Ex.nestArms, List.mem_cons, List.not_mem_nil, or_false] at ha
  rcases ha with rfl | rfl | rfl | rfl <;> exact ⟨_, _, [], _, rfl, by simp⟩

end AutoEnums
