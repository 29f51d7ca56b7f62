import Verif.Lemmas.Rename
import Verif.ExamplesRun

/-! # C58: the expansion does not depend on names and text -/

namespace AutoEnums

open Spec

/-- C58: changing literals, patterns, operators, names of functions, methods and fields, the contents of macro
calls and items, generic arguments in expressions, labels (if different labels stay different), macros and the names
given to markers (if different ones stay different, other than the few that mean something to the macro), identifiers
(other than the few that mean something to the macro) and attributes (other than those for the macro) changes the
result only by the same replacements: the same errors are reported, or the same expansion is produced with the text
replaced.  The names of the generated enums come from hashes of the code, which change as well; this, too, only
replaces names. -/
theorem C58 (ρ : Respelling) (hρ : ρ.Harmless) (env env' : Env) (ht : env'.typeAnalysis = env.typeAnalysis)
    (hh : ∀ n, ρ.ident ("__Enum" ++ toString (env.hash n)) = "__Enum" ++ toString (env'.hash (ρ.node n)))
    (h h' : Nat) (hg : ρ.ident ("__Enum" ++ toString h) = "__Enum" ++ toString h')
    (fuel : Nat) (toks : List Tok) (input : Input) :
    autoEnum env' fuel h' (ρ.toks toks) (ρ.input input) = ρ.output (autoEnum env fuel h toks input) :=
  Rename.autoEnum_respelled hρ ht hh hg fuel toks input

/-- Exchanges the identifiers `x` and `y`, renames the enum, replaces every literal, pattern and name (but not what the macro
writes) by `z`, puts `l` in front of labels, and exchanges the macros `m` and `n`. -/
def Ex.respell : Respelling where
  text t := if ["::core::result::Result::Ok(val)", "::core::result::Result::Err(err)",
    "#[auto_enum] failed to generate error message"].contains t then t else "z"
  label l := "l" ++ l
  ident i := if i = "x" then "y" else if i = "y" then "x"
    else if i = "__Enum5" then "__Enum6" else i
  mac i := if i = "m" then "n" else if i = "n" then "m" else i

theorem Ex.respell_long {s : String} (h : 8 ≤ s.length) : Ex.respell.ident s = s := by
  have h1 : s ≠ "x" := by rintro rfl; exact absurd h (by decide)
  have h2 : s ≠ "y" := by rintro rfl; exact absurd h (by decide)
  have h3 : s ≠ "__Enum5" := by rintro rfl; exact absurd h (by decide)
  simp [Ex.respell, h1, h2, h3]

theorem Ex.respell_harmless : Ex.respell.Harmless where
  labels a b h := by
    have := congrArg String.toList h
    simpa [Ex.respell, String.toList_append, String.toList_inj] using this
  macros a b h := by
    have inv : ∀ a, Ex.respell.mac (Ex.respell.mac a) = a := by
      intro a
      by_cases h1 : a = "m"
      · subst h1; rfl
      · by_cases h2 : a = "n"
        · subst h2; rfl
        · simp [Ex.respell, h1, h2]
    rw [← inv a, h, inv]
  knownMacros x hx := by
    simp only [List.mem_cons, List.not_mem_nil, or_false] at hx
    rcases hx with rfl | rfl | rfl | rfl <;> rfl
  known x hx y := by
    have hx1 : x ≠ "x" := by rintro rfl; simp at hx
    have hx2 : x ≠ "y" := by rintro rfl; simp at hx
    have hx3 : x ≠ "__Enum5" := by rintro rfl; simp at hx
    have hx4 : x ≠ "__Enum6" := by rintro rfl; simp at hx
    simp only [Ex.respell]
    constructor
    · intro h
      split at h
      · exact absurd h.symm hx2
      · split at h
        · exact absurd h.symm hx1
        · split at h
          · exact absurd h.symm hx4
          · exact h
    · rintro rfl
      simp [hx1, hx2, hx3]
  vars := by decide
  variants n := Ex.respell_long (by rw [String.length_append]; have : "__Variant".length = 9 := rfl; omega)
  written t ht := by simp only [Ex.respell]; rw [if_pos (by simpa using ht)]

/-- `'a: loop { if x { break 'a 1 } else { break y } }` -/
def Ex.spelled : Node := .mk (.eLoop (some "a")) [] [.mk .block [] [tailS (.mk .eIf [] [Ex.var "x",
  .mk .block [] [tailS (.mk (.eBreak (some "a")) [] [Ex.lit "1"])],
  exprBlock [tailS (.mk (.eBreak none) [] [Ex.var "y"])]])]]

/-- The hypotheses are met, and the text of the example is really replaced. -/
example : Ex.respell.Harmless ∧
    (∀ n, Ex.respell.ident ("__Enum" ++ toString (Ex.env.hash n)) =
      "__Enum" ++ toString (Ex.env.hash (Ex.respell.node n))) ∧
    Ex.respell.ident ("__Enum" ++ toString 5) = "__Enum" ++ toString 6 ∧
    Ex.respell.node Ex.spelled =
      .mk (.eLoop (some "la")) [] [.mk .block [] [tailS (.mk .eIf [] [Ex.var "y",
        .mk .block [] [tailS (.mk (.eBreak (some "la")) [] [Ex.lit "z"])],
        exprBlock [tailS (.mk (.eBreak none) [] [Ex.var "x"])]])]] ∧
    autoEnum Ex.env 20 6 Ex.iterator (.expr (Ex.respell.node Ex.spelled)) = .code (exprBlock [
      .mk (.sItem (.genEnum "__Enum6" ["__Variant0", "__Variant1"]
        [("__Variant0", "__Variant0"), ("__Variant1", "__Variant1")] [.ofIdents ["Iterator"]])) [] [],
      tailS (.mk (.eLoop (some "la")) [] [.mk .block [] [tailS (.mk .eIf [] [Ex.var "y",
        .mk .block [] [tailS (.mk (.eBreak (some "la")) [] [Ex.v 6 0 (Ex.lit "z")])],
        exprBlock [tailS (.mk (.eBreak none) [] [Ex.v 6 1 (Ex.var "x")])]])]])]) :=
  ⟨Ex.respell_harmless, fun _ => show Ex.respell.ident ("__Enum" ++ toString 7) = "__Enum" ++ toString 7 by decide +kernel,
    by decide +kernel, by decide +kernel, by decide +kernel⟩

/-- `if x { m!(1) } else { #[auto_enum(marker = n, Iterator)] match y { 0 => n!(2), _ => m!(3) } }` -/
def Ex.marked : Node := .mk .eIf [] [Ex.var "x",
  .mk .block [] [tailS (.mk (.eMacro (.ofIdents ["m"]) "1") [] [Ex.lit "1"])],
  exprBlock [tailS (.mk .eMatch [⟨.ofIdents ["auto_enum"], .list [.ident "marker", .eq, .ident "n", .comma,
      .ident "Iterator"]⟩] [Ex.var "y", Ex.arm "0" (.mk (.eMacro (.ofIdents ["n"]) "2") [] [Ex.lit "2"]),
    Ex.arm "_" (.mk (.eMacro (.ofIdents ["m"]) "3") [] [Ex.lit "3"])])]]

def Ex.markedArgs : List Tok := [.ident "Iterator", .comma, .ident "marker", .eq, .ident "m"]

/-- The markers of the attributes of this example are exchanged, in the arguments and in the code. -/
example : Ex.respell.toks Ex.markedArgs = [.ident "Iterator", .comma, .ident "marker", .eq, .ident "n"] ∧
    Ex.respell.node Ex.marked = .mk .eIf [] [Ex.var "y",
      .mk .block [] [tailS (.mk (.eMacro (.ofIdents ["n"]) "z") [] [Ex.lit "z"])],
      exprBlock [tailS (.mk .eMatch [⟨.ofIdents ["auto_enum"], .list [.ident "marker", .eq, .ident "m", .comma,
          .ident "Iterator"]⟩] [Ex.var "x", Ex.arm "z" (.mk (.eMacro (.ofIdents ["m"]) "z") [] [Ex.lit "z"]),
        Ex.arm "z" (.mk (.eMacro (.ofIdents ["n"]) "z") [] [Ex.lit "z"])])]] ∧
    ∃ out, autoEnum Ex.env 20 6 (Ex.respell.toks Ex.markedArgs) (.expr (Ex.respell.node Ex.marked)) = .code out ∧
      decide (autoEnum Ex.env 20 5 Ex.markedArgs (.expr Ex.marked) ≠ .code out) = true :=
  ⟨by decide +kernel, by decide +kernel, Ex.of_check
    (p := fun out => decide (autoEnum Ex.env 20 5 Ex.markedArgs (.expr Ex.marked) ≠ .code out)) (by decide +kernel)⟩

/-- Renaming `marker!` is not harmless, since it is a marker without being named by an attribute. -/
example : ∃ n, autoEnum Ex.env 20 5 Ex.iterator
      (.expr (Respelling.node ⟨id, id, id, fun i => if i = "marker" then "m" else i, fun a => [a]⟩ n)) ≠
    Respelling.output ⟨id, id, id, fun i => if i = "marker" then "m" else i, fun a => [a]⟩
      (autoEnum Ex.env 20 5 Ex.iterator (.expr n)) :=
  ⟨.mk .eIf [] [Ex.var "x", .mk .block [] [tailS (Ex.markerOf (Ex.lit "1"))],
    exprBlock [tailS (Ex.lit "2")]], by decide +kernel⟩

/-- Making macros equal is not harmless: the name of a marker may be used by an outer attribute already. -/
example : autoEnum Ex.env 20 5 (Respelling.toks ⟨id, id, id, fun i => if i = "n" then "m" else i, fun a => [a]⟩ Ex.markedArgs)
      (.expr (Respelling.node ⟨id, id, id, fun i => if i = "n" then "m" else i, fun a => [a]⟩ Ex.marked)) ≠
    Respelling.output ⟨id, id, id, fun i => if i = "n" then "m" else i, fun a => [a]⟩
      (autoEnum Ex.env 20 5 Ex.markedArgs (.expr Ex.marked)) := by decide +kernel

/-- Making labels equal is not harmless. -/
example : ∃ n, autoEnum Ex.env 20 5 Ex.iterator (.expr (Respelling.node ⟨id, fun _ => "a", id, id, fun a => [a]⟩ n)) ≠
    Respelling.output ⟨id, fun _ => "a", id, id, fun a => [a]⟩ (autoEnum Ex.env 20 5 Ex.iterator (.expr n)) :=
  ⟨.mk (.eLoop (some "a")) [] [.mk .block [] [semiS (.mk (.eBreak (some "a")) [] [Ex.lit "1"]),
    semiS (.mk (.eBreak (some "b")) [] [Ex.lit "2"]), semiS (.mk (.eBreak none) [] [Ex.lit "3"])]], by
    decide +kernel⟩

/-- Turning another identifier into one that the macro knows is not harmless. -/
example : ∃ n, autoEnum Ex.env 20 5 Ex.iterator
      (.expr (Respelling.node ⟨id, id, fun i => if i = "x" then "None" else i, id, fun a => [a]⟩ n)) ≠
    Respelling.output ⟨id, id, fun i => if i = "x" then "None" else i, id, fun a => [a]⟩
      (autoEnum Ex.env 20 5 Ex.iterator (.expr n)) :=
  ⟨.mk .eMatch [] [Ex.lit "0", Ex.arm "0" (Ex.lit "1"), Ex.arm "1" (Ex.lit "2"),
    Ex.arm "_" (.mk .eTry [] [Ex.var "x"])], by decide +kernel⟩

end AutoEnums
