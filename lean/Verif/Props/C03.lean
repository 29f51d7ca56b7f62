import Verif.Lemmas.Whole
import Verif.Lemmas.Enums
import Verif.Props.C08
import Verif.Props.C18

/-! # C03: two or more branches, and what the expansion of an input without inner attributes is -/

namespace AutoEnums

open Spec

theorem weigh_zero {nm : String} {n : Node} (h : ∀ a ∈ allAttrs n, named nm a = false) :
    weigh (cnt nm) n = 0 := by
  unfold weigh
  have : ∀ l : List Label, (∀ x ∈ l, ∀ a ∈ x.2, named nm a = false) →
      (l.map (cnt nm)).sum = 0 := by
    intro l
    induction l with
    | nil => intro _; rfl
    | cons x l ih =>
      intro hx
      rw [List.map_cons, List.sum_cons, ih fun y hy => hx y (by simp [hy])]
      unfold cnt
      rw [List.countP_eq_zero.mpr]
      intro a ha
      have := hx x (by simp) a ha
      rw [named_iff, ← Bool.not_eq_true] at this
      exact this
  exact this _ fun x hx a ha => h a (mem_allAttrs.mpr ⟨x, hx, ha⟩)

theorem names_zero {n : Node} (h : ∀ a ∈ allAttrs n, named "auto_enum" a = false) : names n = 0 :=
  weigh_zero h

theorem nests_zero {n : Node} (h : ∀ a ∈ allAttrs n, named "nested" a = false) : nests n = 0 :=
  weigh_zero h

theorem ctors_retype (en : Ident) (b : Bool) (traits : List Path) (n : Node) :
    ctors en (retype b traits n) = ctors en n := by
  unfold retype
  split
  · split
    · simp [ctors, isCtor]
    · rfl
  · rfl

/-- The expansion of an ordinary input without inner attributes to which the attribute is applied. -/
theorem accepted_active (env : Env) (fuel h : Nat) (toks : List Tok) (traits : List Path)
    (marker : Option Ident) (ha : IsArgs toks traits marker)
    (en : Ident) (hen : en = "__Enum" ++ toString h) (m : String) (hm : m = marker.getD "marker")
    (input : Input) (n out : Node)
    (hact : ∀ cx, Cx.new h toks true [] [] = .ok cx → Active env cx n)
    (hin : input = .expr n ∧ isExprNode n = true ∨ input = .stmt n ∧ isExprNode n = false)
    (hord : ordinary en m n = true) (hno : ∀ a ∈ allAttrs n, named "auto_enum" a = false)
    (hfresh : ctors en n = 0) (hrun : autoEnum env fuel h toks input = .code out) :
    ∃ n', Alike en n' (retype env.typeAnalysis traits (treatInput en m n)) ∧
      2 ≤ ctors en (treatInput en m n) ∧
      out = placeEnum (enumDecl en (ctors en (treatInput en m n))
        (traits ++ inferredFor env.typeAnalysis traits n)) n' := by
  obtain ⟨cx, cx', hnew, hex, he, hp⟩ := autoEnum_code hrun
  obtain ⟨_, p1, p2, p3, _, p4, p5, p6, p7, _⟩ := new_args hnew
  have hf := new_fresh hnew
  rw [(parseArgs_iff _ _ _).mpr ha] at p1
  cases p1
  have e1 : cx.ident = en := by rw [p2, hen]; rfl
  have e2 : cx.marker = m := by rw [p3, hm]; rfl
  subst e1 e2
  obtain ⟨c1, c2⟩ := core_spec hin hord (hact _ hnew) p4 hf hex
  have hcl : Clean (core env (visit env fuel) cx n).1.build.1 := by rw [← c1]; exact ⟨he, hp⟩
  obtain ⟨⟨hb, hv⟩, hb1, hb2⟩ := build_clean hcl
  have hT := core_treated (visit_run env fuel) (visit_good env fuel) p4 hf (hact _ hnew) hord hb
  obtain ⟨_, o2, o3⟩ := core_own (visit_good env fuel) hf p5 n (names_zero hno)
  have hv : 2 ≤ (core env (visit env fuel) cx n).1.variants.length := by
    rcases hv with hv | ⟨_, hv⟩
    · exact hv
    · rw [hT.child, p7] at hv; cases hv
  have hk : (core env (visit env fuel) cx n).1.variants.length =
      ctors cx.ident (treatInput cx.ident cx.marker n) := by
    rw [← ctors_retype, ← hT.alike.ctors, o2 hb.1, hfresh]
    omega
  rw [if_neg (by intro h; simp only [List.isEmpty_iff] at h; rw [h] at hv; simp at hv)] at hb2
  refine ⟨_, hT.alike, by omega, (c2 _ hb2 hb).trans ?_⟩
  unfold Cx.buildEnum enumDecl
  have o4 : ∀ k, (core env (visit env fuel) cx n).1.variants.length = k →
      (core env (visit env fuel) cx n).1.variants = variantNames k := by rintro _ rfl; exact o3
  rw [hT.kept.ident, hT.kept.args, hT.traits, o4 _ hk]

/-- C03: the expansion of an ordinary input without inner attributes, if successful, is the one-pass
treatment of the input with the declaration of the enum in front, where the enum has at least two
variants, as many as the treatment has wrapped expressions, and the requested and inferred traits. -/
theorem C03_accepted (env : Env) (fuel h : Nat) (toks : List Tok) (traits : List Path)
    (marker : Option Ident) (ha : IsArgs toks traits marker) (ht : traits ≠ [])
    (en : Ident) (hen : en = "__Enum" ++ toString h) (m : String) (hm : m = marker.getD "marker")
    (input : Input) (n out : Node)
    (hin : input = .expr n ∧ isExprNode n = true ∨ input = .stmt n ∧ isExprNode n = false)
    (hord : ordinary en m n = true) (hno : ∀ a ∈ allAttrs n, named "auto_enum" a = false)
    (hfresh : ctors en n = 0) (hrun : autoEnum env fuel h toks input = .code out) :
    ∃ n', Alike en n' (retype env.typeAnalysis traits (treatInput en m n)) ∧
      2 ≤ ctors en (treatInput en m n) ∧
      out = placeEnum (enumDecl en (ctors en (treatInput en m n))
        (traits ++ inferredFor env.typeAnalysis traits n)) n' := by
  refine accepted_active env fuel h toks traits marker ha en hen m hm input n out ?_ hin hord hno
    hfresh hrun
  intro cx hnew
  obtain ⟨_, p1, _⟩ := new_args hnew
  rw [(parseArgs_iff _ _ _).mpr ha] at p1
  cases p1
  exact .of_args ht n

/-- C03: if an ordinary input without inner attributes is rejected with the error "two or more", then
this is the only error and there are fewer than two expressions to wrap. -/
theorem C03_rejected (env : Env) (fuel h : Nat) (toks : List Tok) (traits : List Path)
    (marker : Option Ident) (ha : IsArgs toks traits marker) (ht : traits ≠ [])
    (en : Ident) (hen : en = "__Enum" ++ toString h) (m : String) (hm : m = marker.getD "marker")
    (input : Input) (n : Node) (es : List Err)
    (hin : input = .expr n ∧ isExprNode n = true ∨ input = .stmt n ∧ isExprNode n = false)
    (hord : ordinary en m n = true) (hno : ∀ a ∈ allAttrs n, named "auto_enum" a = false)
    (hfresh : ctors en n = 0) (hrun : autoEnum env fuel h toks input = .errors es)
    (htwo : ∃ l b, .twoOrMore l b ∈ es) :
    ctors en (treatInput en m n) < 2 ∧
      ∃ l, es = [.twoOrMore l (ctors en (treatInput en m n) = 1)] := by
  cases hnew : Cx.new h toks true [] [] with
  | error e =>
    simp only [Cx.new, (parseArgs_iff _ _ _).mpr ha] at hnew
    split at hnew
    · simp at hnew
    · cases hnew
  | ok cx =>
  simp only [autoEnum, hnew] at hrun
  split at hrun
  · rename_i r hex
    unfold finish at hrun
    split at hrun
    · rename_i hpan
      split at hrun
      · cases hrun
      · cases hrun
        obtain ⟨_, p1, p2, p3, _, p4, p5, p6, p7, _⟩ := new_args hnew
        have hf := new_fresh hnew
        rw [(parseArgs_iff _ _ _).mpr ha] at p1
        cases p1
        have e1 : cx.ident = en := by rw [p2, hen]; rfl
        have e2 : cx.marker = m := by rw [p3, hm]; rfl
        subst e1 e2
        obtain ⟨c1, _⟩ := core_spec hin hord (.of_args ht n) p4 hf hex
        obtain ⟨o1, o2, o3⟩ := core_own (visit_good env fuel) hf p5 n (names_zero hno)
        have hct := core_treated (env := env) (visit_run env fuel) (visit_good env fuel) p4 hf (.of_args ht n) hord
        rw [c1] at hpan htwo ⊢
        generalize core env (visit env fuel) cx n = c at *
        obtain ⟨l, b, htwo⟩ := htwo
        rcases build_cases c.1 with ⟨_, hb⟩ | ⟨he, hv, hb⟩ | ⟨_, _, _, hb⟩ | ⟨_, _, hb⟩ <;> rw [hb] at htwo hpan ⊢
        · have := o1 _ htwo; simp [Err.isTwo] at this
        · have hT := hct ⟨he, by simpa [Cx.error] using hpan⟩
          have hk : c.1.variants.length = ctors cx.ident (treatInput cx.ident cx.marker n) := by
            rw [← ctors_retype, ← hT.alike.ctors, o2 he, hfresh]
            omega
          rw [← hk]
          refine ⟨by omega, c.1.lastMode, ?_⟩
          simp only [Cx.error, he, List.nil_append, List.cons.injEq, Err.twoOrMore.injEq, true_and,
            and_true]
          rcases hv with hv | ⟨hv, _⟩
          · cases hvar : c.1.variants with
            | nil => rw [hvar] at hv; cases hv
            | cons _ _ => rw [hvar] at hv; simpa using hv
          · rw [hv]; simpa using hv
        · have := o1 _ htwo; simp [Err.isTwo] at this
        · have := o1 _ htwo; simp [Err.isTwo] at this
    · cases hrun
  · rename_i hex
    rcases hin with ⟨rfl, _⟩ | ⟨rfl, _⟩ <;> cases hex

/-- The hypotheses of `C03_accepted` are met by a function with a `return` and a `match`; three
expressions are wrapped. -/
example : IsArgs Ex.iterator [.ofIdents ["Iterator"]] none ∧ isExprNode Ex.fnIn = false ∧
    ordinary "__Enum5" "marker" Ex.fnIn = true ∧ allAttrs Ex.fnIn = [] ∧ ctors "__Enum5" Ex.fnIn = 0 ∧
    ctors "__Enum5" (treatInput "__Enum5" "marker" Ex.fnIn) = 3 ∧
    autoEnum Ex.env 20 5 Ex.iterator (.stmt Ex.fnIn) = .code Ex.fnOut :=
  ⟨(parseArgs_iff _ _ _).mp rfl, by decide +kernel, by decide +kernel, by decide +kernel,
    by decide +kernel, by decide +kernel, Ex.fn_run⟩

/-- `match x { 0 => 1, _ => panic!() }` -/
def Ex.single : Node := .mk .eMatch [] [Ex.var "x", Ex.arm "0" (Ex.lit "1"),
  Ex.arm "_" (.mk (.eMacro (.ofIdents ["panic"]) "") [] [])]

/-- The hypotheses of `C03_rejected` are met by a `match` with a single arm that has a value. -/
example : IsArgs Ex.iterator [.ofIdents ["Iterator"]] none ∧ isExprNode Ex.single = true ∧
    ordinary "__Enum5" "marker" Ex.single = true ∧ allAttrs Ex.single = [] ∧
    ctors "__Enum5" Ex.single = 0 ∧
    autoEnum Ex.env 20 5 Ex.iterator (.expr Ex.single) = .errors [.twoOrMore .default true] :=
  ⟨(parseArgs_iff _ _ _).mp rfl, by decide +kernel, by decide +kernel, by decide +kernel,
    by decide +kernel, by decide +kernel⟩

/-- `{ #[auto_enum(Iterator)] let y = if c { 2 } else { 3 }; y }` -/
def Ex.wrapper : Node := exprBlock [.mk (.sLocal (.plain "y")) [⟨.ofIdents [NAME], .list Ex.iterator⟩]
    [.mk .eIf [] [Ex.var "c", .mk .block [] [tailS (Ex.lit "2")], exprBlock [tailS (Ex.lit "3")]]],
  tailS (Ex.var "y")]

/-- `match x { 0 => 1, 1 => 2, _ => #[auto_enum(Iterator)] { .. } }` with the block above. -/
def Ex.wrapped : Node := .mk .eMatch [] [Ex.var "x", Ex.arm "0" (Ex.lit "1"), Ex.arm "1" (Ex.lit "2"),
  Ex.arm "_" (.mk (.eBlock none) [⟨.ofIdents [NAME], .list Ex.iterator⟩] Ex.wrapper.kids)]

/-- C03 fails with inner attributes: an attribute without expressions to wrap is accepted if there is
an attribute inside, but not if it is itself an inner attribute. -/
theorem C03_inner_fails :
    (∃ out, autoEnum Ex.env 20 5 Ex.iterator (.expr Ex.wrapper) = .code out) ∧
    autoEnum Ex.env 20 5 Ex.iterator (.expr Ex.wrapped) = .errors [.twoOrMore .default false] := by
  refine ⟨?_, by decide +kernel⟩
  obtain ⟨out, h, _⟩ := Ex.of_check (p := fun _ => true)
    (o := autoEnum Ex.env 20 5 Ex.iterator (.expr Ex.wrapper)) (by decide +kernel)
  exact ⟨out, h⟩

end AutoEnums
