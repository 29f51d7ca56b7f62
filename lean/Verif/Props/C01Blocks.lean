import Verif.Lemmas.Blocks
import Verif.Props.C01

/-!
# C01: each declared variant is constructed exactly once in the block that declares it

Names of generated enums come from a hash of the annotated code, so that attributes on equal code get
equal names. `C01_exactly_once` does not apply to such code. The theorem here does: it speaks about one
block at a time.
-/

namespace AutoEnums

open Spec

/-- C01: if the input does not mention `en::vn`, and no block that declares `en::vn` contains a second
declaration of it, then every block that declares `en::vn` constructs it exactly once. Different blocks
may declare enums of the same name. -/
theorem C01_in_block (env : Env) (fuel h : Nat) (toks : List Tok) (input : Input)
    (n out : Node) (hin : input = .stmt n ∨ input = .expr n)
    (hrun : autoEnum env fuel h toks input = .code out) (en vn : Ident)
    (hd : decls en vn n = 0) (hu : uses en vn n = 0)
    (hone : ∀ b ∈ declBlocks en vn out, decls en vn b = 1) :
    ∀ b ∈ declBlocks en vn out, uses en vn b = 1 := by
  obtain ⟨cx, m, cx', hnew, hm, ht, he, _⟩ := autoEnum_trace hrun
  have : m = n := by
    rcases hin with rfl | rfl <;> rcases hm with hm | hm <;> first | cases hm; rfl | cases hm
  subst this
  refine ht.blocks he hone (.inl ?_) (pending_zero (new_fresh hnew).variants) ?_
  · have := freeUses_le (en := en) (vn := vn) m
    omega
  · unfold Every
    rw [declBlocks_zero m hd]
    simp

/-- `#[auto_enum(Iterator)] let y = if c { 2 } else { 3 };` -/
def Ex.twinLet : Node := .mk (.sLocal (.plain "y")) [⟨.ofIdents [NAME], .list Ex.iterator⟩]
  [.mk .eIf [] [Ex.var "c", .mk .block [] [tailS (Ex.lit "2")], exprBlock [tailS (Ex.lit "3")]]]

/-- A match each of whose arms contains the same attributed `let`. -/
def Ex.twins : Node := .mk (.sLocal (.plain "x")) [] [.mk .eMatch [] [Ex.var "a",
  Ex.arm "0" (exprBlock [Ex.twinLet, tailS (Ex.var "y")]),
  Ex.arm "_" (exprBlock [Ex.twinLet, tailS (Ex.var "y")])]]

/-- The two inner enums have the same name, and each of the two blocks satisfies the hypothesis. -/
example : ∃ out, autoEnum Ex.env 20 5 Ex.iterator (.stmt Ex.twins) = .code out ∧
    decls "__Enum7" "__Variant0" Ex.twins = 0 ∧ uses "__Enum7" "__Variant0" Ex.twins = 0 ∧
    ¬((enums out).map (·.name)).Nodup ∧ (declBlocks "__Enum7" "__Variant0" out).length = 2 ∧
    (∀ b ∈ declBlocks "__Enum7" "__Variant0" out, decls "__Enum7" "__Variant0" b = 1) ∧
    ∀ b ∈ declBlocks "__Enum7" "__Variant0" out, uses "__Enum7" "__Variant0" b = 1 := by
  have h := Ex.of_check (o := autoEnum Ex.env 20 5 Ex.iterator (.stmt Ex.twins))
    (p := fun out => decide (¬((enums out).map GenEnum.name).Nodup) &&
      decide ((declBlocks "__Enum7" "__Variant0" out).length = 2) &&
      decide (∀ b ∈ declBlocks "__Enum7" "__Variant0" out, decls "__Enum7" "__Variant0" b = 1))
    (by decide +kernel)
  obtain ⟨out, ho, hp⟩ := h
  simp only [Bool.and_eq_true, decide_eq_true_eq] at hp
  exact ⟨out, ho, by decide +kernel, by decide +kernel, hp.1.1, hp.1.2, hp.2,
    C01_in_block _ _ _ _ _ _ _ (.inl rfl) ho _ _ (by decide +kernel) (by decide +kernel) hp.2⟩

/-- The hypothesis is needed: if the hash gives an enum the name of one inside of it, the block of the
outer enum constructs the variant twice. -/
example : ∃ out, autoEnum Ex.env 20 7 Ex.iterator (.stmt Ex.letIn) = .code out ∧
    ∃ b ∈ declBlocks "__Enum7" "__Variant0" out, uses "__Enum7" "__Variant0" b = 2 := by
  have h := Ex.of_check (o := autoEnum Ex.env 20 7 Ex.iterator (.stmt Ex.letIn))
    (p := fun out => decide (∃ b ∈ declBlocks "__Enum7" "__Variant0" out, uses "__Enum7" "__Variant0" b = 2))
    (by decide +kernel)
  obtain ⟨out, ho, hp⟩ := h
  exact ⟨out, ho, of_decide_eq_true hp⟩

end AutoEnums
