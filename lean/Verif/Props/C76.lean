import Verif.Lemmas.ChainsVisit
import Verif.Props.C72

/-! # C76: an `if` chain is treated as a `match` with guards -/

namespace AutoEnums

open Spec

namespace Chains

/-- `match () { arms }`. -/
def unitMatch (arms : List Node) : Node := .mk .eMatch [] (.mk .eTuple [] [] :: arms)

theorem arms_freeze {env : Env} {vk : VK} : ∀ {arms : List Node}, Arms Body arms → ∀ n ∈ arms, Freezes env vk n
  | _, .last (b := b) hb, n, hn => by
    rw [List.mem_singleton] at hn
    subst hn
    intro c hc
    have : ∀ n ∈ [b], Freezes env vk n := fun n hn => by rw [List.mem_singleton] at hn; subst hn; exact (body_freezes hb).1
    exact V_arm this (VL_freezes this hc)
  | _, .cons (c := e) (b := b) he hb h, n, hn => by
    rcases List.mem_cons.mp hn with rfl | hn
    · intro c hc
      have : ∀ n ∈ [e, b], Freezes env vk n := fun n hn => by
        simp only [List.mem_cons, List.not_mem_nil, or_false] at hn
        rcases hn with rfl | rfl
        · exact freezes_expr he
        · exact (body_freezes hb).1
      exact V_arm this (VL_freezes this hc)
    · exact arms_freeze h n hn

theorem visit_both (env : Env) (vk : VK) {c : Cx} (hi : Inv c) {arms : List Node} (h : Arms Body arms) :
    ∃ F c' arms', ∀ f, F ≤ f → visit env f vk {} c (unitMatch arms) = (c', unitMatch arms') ∧
      visit env f vk {} c (elseIf arms) = (c', elseIf arms') := by
  obtain ⟨c', arms', h1, F, h2⟩ := chain_both (env := env) (vk := vk) h hi
  have hu : V env vk c (.mk .eTuple [] []) (c, .mk .eTuple [] []) :=
    V_plain rfl (fun n hn => by cases hn) (VL_nil c)
  have hm : V env vk c (unitMatch arms) (c', unitMatch arms') := by
    refine V_plain rfl ?_ (VL_cons hu h1)
    intro n hn
    rcases List.mem_cons.mp hn with rfl | hn
    · exact freezes_expr rfl
    · exact arms_freeze h n hn
  obtain ⟨G, hm⟩ := hm
  exact ⟨max F G, c', arms', fun f hf => ⟨hm f (by omega), h2 f (by omega)⟩⟩

end Chains

/-- C76: `if c₁ { b₁ } else if c₂ { b₂ } .. else { bₙ }` is treated as `match () { _ if c₁ => { b₁ } .. _ => { bₙ } }`
(`asIf` turns such a `match` into the `if`): the same errors are reported, or the same enum is declared (`d`) and the
`if` chain becomes what the `match` becomes, seen as an `if` chain.

`o` is the outcome for the `match`, up to the declaration.  `#[nested]` is excluded: see C06. -/
theorem C76 (env : Env) (h : Nat) (toks : List Tok) (arms : List Node) (m : Node)
    (hm : m = .mk .eMatch [] (.mk .eTuple [] [] :: arms)) (hl : 2 ≤ arms.length)
    (hg : guarded bareBlock arms = true) (hn : nestedInL arms = false) :
    ∃ (F : Nat) (o : Output) (d : Option Node), ∀ fuel, F ≤ fuel →
      autoEnum env fuel h toks (.expr m) = Spec.Output.put (declare d) o ∧
      autoEnum env fuel h toks (.expr (asIf m)) = Spec.Output.put (fun m' => declare d (asIf m')) o ∧
      (∀ body, o = .code body → ∃ arms', body = .mk .eMatch [] (.mk .eTuple [] [] :: arms')) := by
  subst hm
  have ha := Chains.arms_of hg
  have hn' : findNestedL arms = false := by rw [nestedInL_eq]; exact hn
  change ∃ F o d, ∀ fuel, F ≤ fuel → autoEnum env fuel h toks (.expr (Chains.unitMatch arms)) = _ ∧
    autoEnum env fuel h toks (.expr (elseIf arms)) = _ ∧ _
  unfold autoEnum
  cases hnew : Cx.new h toks true [] [] with
  | error e => exact ⟨0, .errors [e], none, fun _ _ => ⟨rfl, rfl, by rintro _ h; cases h⟩⟩
  | ok cx =>
    have hf := new_fresh hnew
    have hcl : closes (elseIf arms).kind = false := by
      cases ha with
      | last _ => rfl
      | cons _ _ _ => rw [Chains.elseIf_cons]; rfl
    have hcode : ∀ (r : Cx × Node) (body : Node), finish r = .code body → body = r.2 := by
      intro r body hb
      unfold finish at hb
      split at hb
      · split at hb
        · cases hb; rfl
        · cases hb
      · cases hb
    simp only [expandInput, expandParentExpr, Bool.false_eq_true, if_false]
    by_cases hdm : cx.isDummy = true
    · simp only [hdm, if_true, dummyExpr]
      obtain ⟨F, c', arms', hv⟩ := Chains.visit_both env .dummy
        ((Book.assert cx cx.args.isEmpty .dummyArgs).inv (inv_default hf.mode)) (Chains.arms_mono Chains.body_bare ha)
      refine ⟨F, finish (c', Chains.unitMatch arms'), none, fun fuel hfuel => ?_⟩
      obtain ⟨h1, h2⟩ := hv fuel hfuel
      rw [h1, h2]
      exact ⟨finish_put (c', Chains.unitMatch arms') fun n => n, finish_put (c', Chains.unitMatch arms') asIf,
        fun body hb => ⟨arms', hcode _ body hb⟩⟩
    · simp only [hdm, Bool.false_eq_true, if_false, expandBuild]
      obtain ⟨c1, arms1, hb1, k1, k2⟩ := Chains.child_both cx (.mk .eTuple [] []) ha hn' hl
      have hi : Inv c1 := by
        have := (childExpr_tr (env := env) (Chains.unitMatch arms) cx).inv (inv_default hf.mode)
        rw [Chains.unitMatch, k1] at this
        exact this
      have hv : ∃ F c' arms', ∀ f, F ≤ f → expandTarget env (visit env f) cx (Chains.unitMatch arms) = (c', Chains.unitMatch arms') ∧
          expandTarget env (visit env f) cx (elseIf arms) = (c', elseIf arms') := by
        simp only [expandTarget, Chains.unitMatch, k1, k2, dummyExpr]
        cases c1.analysisExit env with
        | true => exact Chains.visit_both env .dummy ((Book.assert c1 _ _).inv hi) hb1
        | false => exact Chains.visit_both env .visitor hi hb1
      obtain ⟨F, c', arms', hv⟩ := hv
      cases hB : c'.build with
      | mk c2 d =>
        refine ⟨F, finish (c2, Chains.unitMatch arms'), d, fun fuel hfuel => ?_⟩
        obtain ⟨h1, h2⟩ := hv fuel hfuel
        rw [expandExpr_open rfl, expandExpr_open hcl, h1, h2]
        dsimp only
        rw [hB]
        refine ⟨?_, ?_, fun body hb => ⟨arms', hcode _ body hb⟩⟩
        · cases d with
          | none => exact finish_put (c2, Chains.unitMatch arms') fun n => n
          | some item => exact finish_put (c2, Chains.unitMatch arms') _
        · cases d with
          | none => exact finish_put (c2, Chains.unitMatch arms') asIf
          | some item => exact finish_put (c2, Chains.unitMatch arms') fun m' => declare (some item) (asIf m')

/-- `_ if c => { b }`. -/
def Ex.guardArm (c : Node) (b : List Node) : Node := .mk (.arm "_") [] [c, .mk (.eBlock none) [] b]

/-- `_ => { b }`. -/
def Ex.elseArm (b : List Node) : Node := .mk (.arm "_") [] [.mk (.eBlock none) [] b]

/-- `_ if c => { y; 1 } _ if d => { panic!() } _ if e => { 2 } _ => { return marker!(z); }`. -/
def Ex.chainArms : List Node := [
  Ex.guardArm (Ex.var "c") [.mk (.sExpr true) [] [Ex.var "y"], .mk (.sExpr false) [] [Ex.lit "1"]],
  Ex.guardArm (Ex.var "d") [.mk (.sExpr false) [] [.mk (.eMacro (.ofIdents ["panic"]) "") [] []]],
  Ex.guardArm (Ex.var "e") [.mk (.sExpr false) [] [Ex.lit "2"]],
  Ex.elseArm [.mk (.sExpr true) [] [.mk .eReturn [] [Ex.marker (Ex.var "z")]]]]

/-- The number of variants of the enum declared first. -/
def Ex.variantsOf : Node → Nat
  | .mk _ _ (.mk (.sItem (.genEnum _ vs _ _)) _ _ :: _) => vs.length
  | _ => 0

/-- The hypotheses are met by
`if c { y; 1 } else if d { panic!() } else if e { 2 } else { return marker!(z); }`, of which two branches and
the marker are wrapped. -/
example : guarded bareBlock Ex.chainArms = true ∧ nestedInL Ex.chainArms = false ∧ 2 ≤ Ex.chainArms.length ∧
    asIf (.mk .eMatch [] (.mk .eTuple [] [] :: Ex.chainArms)) =
      .mk .eIf [] [Ex.var "c", .mk .block [] [.mk (.sExpr true) [] [Ex.var "y"], .mk (.sExpr false) [] [Ex.lit "1"]],
        .mk .eIf [] [Ex.var "d", .mk .block [] [.mk (.sExpr false) [] [.mk (.eMacro (.ofIdents ["panic"]) "") [] []]],
          .mk .eIf [] [Ex.var "e", .mk .block [] [.mk (.sExpr false) [] [Ex.lit "2"]],
            .mk (.eBlock none) [] [.mk (.sExpr true) [] [.mk .eReturn [] [Ex.marker (Ex.var "z")]]]]]] ∧
    (∃ out, autoEnum Ex.env 20 5 Ex.iterator (.expr (.mk .eMatch [] (.mk .eTuple [] [] :: Ex.chainArms))) = .code out ∧
      (fun out => Ex.variantsOf out == 3) out = true) ∧
    ∃ out, autoEnum Ex.env 20 5 Ex.iterator (.expr (elseIf Ex.chainArms)) = .code out ∧
      (fun out => Ex.variantsOf out == 3) out = true :=
  ⟨by decide +kernel, by decide +kernel, by decide, rfl, Ex.of_check (by decide +kernel), Ex.of_check (by decide +kernel)⟩

/-- `_ if c => { #[nested] match x { 0 => 1, _ => 2 }; } _ => { 3 }`. -/
def Ex.nestedChain : List Node := [
  Ex.guardArm (Ex.var "c") [.mk (.sExpr true) [] [.mk .eMatch [Ex.helper "nested"]
    [Ex.var "x", Ex.arm "0" (Ex.lit "1"), Ex.arm "_" (Ex.lit "2")]]],
  Ex.elseArm [.mk (.sExpr false) [] [Ex.lit "3"]]]

/-- The exception for `#[nested]` is needed: in `if c { #[nested] match x { 0 => 1, _ => 2 }; } else { 3 }` the first
branch is wrapped, in the `match` it is not. -/
example : guarded bareBlock Ex.nestedChain = true ∧ nestedInL Ex.nestedChain = true ∧
    (∃ out, autoEnum Ex.env 20 5 Ex.iterator (.expr (.mk .eMatch [] (.mk .eTuple [] [] :: Ex.nestedChain))) = .code out ∧
      (fun out => Ex.variantsOf out == 3) out = true) ∧
    ∃ out, autoEnum Ex.env 20 5 Ex.iterator (.expr (elseIf Ex.nestedChain)) = .code out ∧
      (fun out => Ex.variantsOf out == 4) out = true :=
  ⟨by decide +kernel, by decide +kernel, Ex.of_check (by decide +kernel), Ex.of_check (by decide +kernel)⟩

end AutoEnums
