import Verif.Lemmas.OutlineWhole
import Verif.ExamplesAccepted
import Verif.Props.C03

/-! # C55: what an attribute does outside of the inputs of inner attributes -/

namespace AutoEnums

open Spec

/-- C55: the successful expansion of an input with inner attributes, whose code outside of their inputs
is ordinary, is the one-pass treatment of that outside code with something put into the holes left by the
inner attributes.  In front is the declaration of the enum with two or more variants; it is missing only
if there is an inner attribute. -/
theorem C55_outside (env : Env) (traits : List Path) (en : Ident) (m : String) (n out : Node)
    (h : Accepted env traits en m n out) (ho : ordinaryOuter en m n = true) :
    ∃ n', Fills en n' (retype env.typeAnalysis traits (treatOuter en m n)) ∧
      ((∃ k, 2 ≤ k ∧
        out = placeEnum (enumDecl en k (traits ++ inferredFor env.typeAnalysis traits n)) n') ∨
      out = n' ∧ ∃ a ∈ allAttrs n, named "auto_enum" a = true) := by
  obtain ⟨fuel, g, toks, marker, input, ha, hen, hm, hin, hrun⟩ := h.run
  obtain ⟨cx, cx', hnew, hex, he, hp⟩ := autoEnum_code hrun
  obtain ⟨_, p1, p2, p3, _, p4, p5, p6, p7, _⟩ := new_args hnew
  have hf := new_fresh hnew
  rw [(parseArgs_iff _ _ _).mpr ha] at p1
  cases p1
  have e1 : cx.ident = en := by rw [p2, hen]; rfl
  have e2 : cx.marker = m := by rw [p3, hm]; rfl
  subst e1 e2
  have hact : Active env cx n := .of_args h.some n
  obtain ⟨c1, c2⟩ := core_place hin ho hact p4 hf hex
  have hcl : Clean (core env (visit env fuel) cx n).1.build.1 := by rw [← c1]; exact ⟨he, hp⟩
  obtain ⟨⟨hb, hv⟩, hb1, hb2⟩ := build_clean hcl
  obtain ⟨c2, c3⟩ := c2 hb
  have hT := core_outer (visit_run env fuel) (visit_good env fuel) p4 hf hact ho hb
  refine ⟨_, hT.fills, ?_⟩
  by_cases hz : (core env (visit env fuel) cx n).1.variants = []
  · right
    rw [hz] at hb2
    refine ⟨c3 hb2, ?_⟩
    rw [← Classical.not_not (a := ∃ a ∈ allAttrs n, named "auto_enum" a = true)]
    intro hno
    have hno : ∀ a ∈ allAttrs n, named "auto_enum" a = false := by
      intro a hm
      rw [← Bool.not_eq_true]
      exact fun hx => hno ⟨a, hm, hx⟩
    have hT := core_treated (visit_run env fuel) (visit_good env fuel) p4 hf hact
      ((outer_same hno).1 ▸ ho) hb
    rcases hv with hv | ⟨_, hv⟩
    · rw [hz] at hv; cases hv
    · rw [hT.child, p7] at hv; cases hv
  · left
    have hv : 2 ≤ (core env (visit env fuel) cx n).1.variants.length := by
      rcases hv with hv | ⟨hv, _⟩
      · exact hv
      · exact absurd hv hz
    rw [if_neg (by simpa using hz)] at hb2
    refine ⟨_, hv, (c2 _ hb2).trans ?_⟩
    obtain ⟨cx0, n0, h1, _, h3, _⟩ := core_tr (env := env) (visit_good env fuel) hf n
    have hn := h1.variantNames rfl (by rw [h3]; rfl)
    unfold Cx.buildEnum enumDecl
    rw [hT.kept.ident, hT.kept.args, hT.traits, ← hn]

/-- The hypotheses are met by `let x = match a { 0 => 1, _ => { #[auto_enum(Iterator)] let y = ..; marker!(y) } };`:
outside of the inner `let`, the first arm and the marker are wrapped. -/
example : Accepted Ex.env [.ofIdents ["Iterator"]] "__Enum5" "marker" Ex.letIn Ex.letOut ∧
    ordinaryOuter "__Enum5" "marker" Ex.letIn = true ∧
    Alike "__Enum5" (treatOuter "__Enum5" "marker" Ex.letIn)
      (.mk (.sLocal (.plain "x")) [] [.mk .eMatch [] [Ex.var "a",
        Ex.arm "0" (Ex.v 5 0 (Ex.lit "1")),
        Ex.arm "_" (exprBlock [letHole, tailS (Ex.v 5 1 (Ex.var "y"))])]]) :=
  ⟨Ex.let_accepted, by decide +kernel, by unfold Alike; decide +kernel⟩

/-- ```
fn f() -> impl Iterator {
    if c { return 1; }
    let z = #[auto_enum(Iterator)] if c { 2 } else { 3 };
    match x { 0 => 4, 1 => #[auto_enum(Iterator)] match y { 0 => 5, _ => 6 }, _ => 7 }
}
``` -/
def Ex.holedIn : Node := .mk (.iFn "f" (some Ex.implIter)) [] [.mk .block []
  [semiS (.mk .eIf [] [Ex.var "c", .mk .block [] [semiS (.mk .eReturn [] [Ex.lit "1"])]]),
   .mk (.sLocal (.plain "z")) [] [.mk .eIf [⟨.ofIdents [NAME], .list Ex.iterator⟩] [Ex.var "c",
     .mk .block [] [tailS (Ex.lit "2")], exprBlock [tailS (Ex.lit "3")]]],
   tailS (.mk .eMatch [] [Ex.var "x", Ex.arm "0" (Ex.lit "4"),
     Ex.arm "1" (.mk .eMatch [⟨.ofIdents [NAME], .list Ex.iterator⟩]
       [Ex.var "y", Ex.arm "0" (Ex.lit "5"), Ex.arm "_" (Ex.lit "6")]),
     Ex.arm "_" (Ex.lit "7")])]]

/-- The same for a function: the arms with a value and the `return` are wrapped, while the expressions
with inner attributes are left to them. -/
example : (∃ out, Accepted Ex.env [.ofIdents ["Iterator"]] "__Enum5" "marker" Ex.holedIn out) ∧
    ordinaryOuter "__Enum5" "marker" Ex.holedIn = true ∧
    Alike "__Enum5" (treatOuter "__Enum5" "marker" Ex.holedIn)
      (.mk (.iFn "f" (some Ex.implIter)) [] [.mk .block []
        [semiS (.mk .eIf [] [Ex.var "c", .mk .block [] [semiS (.mk .eReturn [] [Ex.v 5 2 (Ex.lit "1")])]]),
         .mk (.sLocal (.plain "z")) [] [hole],
         tailS (.mk .eMatch [] [Ex.var "x", Ex.arm "0" (Ex.v 5 0 (Ex.lit "4")), Ex.arm "1" hole,
           Ex.arm "_" (Ex.v 5 1 (Ex.lit "7"))])]]) := by
  obtain ⟨out, h, _⟩ := Ex.of_check (p := fun _ => true)
    (o := autoEnum Ex.env 20 5 Ex.iterator (.stmt Ex.holedIn)) (by decide +kernel)
  exact ⟨⟨out, Ex.accepted_stmt rfl h⟩, by decide +kernel, by unfold Alike; decide +kernel⟩

/-- The enum is missing for `Ex.wrapper`, in which there is nothing to wrap for the outer attribute. -/
example : ∃ out, Accepted Ex.env [.ofIdents ["Iterator"]] "__Enum5" "marker" Ex.wrapper out ∧
    ordinaryOuter "__Enum5" "marker" Ex.wrapper = true ∧ treatOuter "__Enum5" "marker" Ex.wrapper =
      exprBlock [letHole, tailS (Ex.var "y")] ∧ out.kids.length = 2 := by
  obtain ⟨out, h, h2⟩ := Ex.of_check (p := fun out => out.kids.length == 2)
    (o := autoEnum Ex.env 20 5 Ex.iterator (.expr Ex.wrapper)) (by decide +kernel)
  exact ⟨out, Ex.accepted_expr rfl h, by decide +kernel, by decide +kernel, by simpa using h2⟩

end AutoEnums
