import Verif.Lemmas.Anon
import Verif.Props.C70
import Verif.Props.C73

/-! # C74: the hashes of the code only name the enums

The theorems with the suffix `_names` are C70 and C73 for arbitrary hashes.
-/

namespace AutoEnums

open Spec

/-- C74: whatever the hash function and the hash of the input are, the outcome is the same up to the names of
the enums. -/
theorem C74 (env env' : Env) (ht : env'.typeAnalysis = env.typeAnalysis) (h h' fuel : Nat) (toks : List Tok)
    (input : Input) :
    anon.output (autoEnum env' fuel h' toks input) = anon.output (autoEnum env fuel h toks input) := by
  rw [Anon.output, Anon.output, ht]

/-- In particular, hashes do not influence which errors are reported. -/
theorem C74_errors (env env' : Env) (ht : env'.typeAnalysis = env.typeAnalysis) (h h' fuel : Nat) (toks : List Tok)
    (input : Input) (es : List Err) :
    autoEnum env' fuel h' toks input = .errors es ↔ autoEnum env fuel h toks input = .errors es := by
  have := C74 env env' ht h h' fuel toks input
  cases h1 : autoEnum env fuel h toks input <;> cases h2 : autoEnum env' fuel h' toks input <;>
    rw [h1, h2] at this <;> simp_all [Respelling.output, Anon.errs]

/-- C70 without a condition on the hashes: replacing literals by operands gives, up to the names of the enums,
the outcome with the same replacements. -/
theorem C70_names {σ : String → Node} (hσ : ∀ s, operand (σ s) = true) {d : Nat} (hd : ∀ s, depth (σ s) ≤ d)
    (env env' : Env) (ht : env'.typeAnalysis = env.typeAnalysis) (h h' : Nat) (toks : List Tok) (input : Input)
    (hvalid : ∀ n, input = .stmt n ∨ input = .expr n → elseOk n = true) :
    ∃ F, ∀ f, F ≤ f → anon.output (autoEnum env' f h' toks (fillInput σ input)) =
      anon.output (Spec.Output.put (fill σ) (autoEnum env f h toks input)) := by
  obtain ⟨F, hF⟩ := C19 env h toks input hvalid
  have hne : ∀ f, F ≤ f → ∀ ps, autoEnum env f h toks input ≠ .panicked ps := by
    intro f hf ps he
    rcases hF with ⟨out, ho⟩ | ⟨es, ho⟩ <;> (rw [ho f hf] at he; cases he)
  refine ⟨F + d, fun f hf => ?_⟩
  obtain ⟨g, rfl⟩ : ∃ g, f = F + g + d := ⟨f - F - d, by omega⟩
  have hput : anon.output (Spec.Output.put (fill σ) (autoEnum env (F + g) h toks input)) =
      Spec.Output.put (fill fun s => anon.node (σ s)) (anon.output (autoEnum env (F + g) h toks input)) := by
    cases autoEnum env (F + g) h toks input with
    | code n => exact congrArg Output.code (Anon.fill_anon σ n)
    | errors es => rfl
    | panicked ps => rfl
  have h1 : ∀ ps, autoEnum ⟨fun _ => 0, env.typeAnalysis⟩ (F + g) 0 toks (anon.input input) ≠ .panicked ps := by
    rw [← Anon.output env (F + g) h toks input]
    exact Anon.not_panicked (hne (F + g) (by omega))
  have h2 := C70_run (σ := fun s => anon.node (σ s)) (d := d) (fun s => by rw [Anon.operand_anon]; exact hσ s)
    (fun s => by rw [Anon.depth_anon]; exact hd s) (env := ⟨fun _ => 0, env.typeAnalysis⟩)
    (env' := ⟨fun _ => 0, env'.typeAnalysis⟩) ht (fun _ => rfl) (F + g) 0 toks (anon.input input) h1
  have h3 := C19_enough env (f := F + g) (g := F + g + d) h toks input (by omega) (hne _ (by omega))
  rw [h3, hput, Anon.output env' (F + g + d) h' toks (fillInput σ input), Anon.fillInput_anon, h2,
    Anon.output env (F + g) h toks input]

/-- C73 without a condition on the hashes: adding the statements `ss` gives, up to the names of the enums, the
outcome with the same statements added. -/
theorem C73_names (env env' : Env) (ht : env'.typeAnalysis = env.typeAnalysis) {ss : List Node}
    (h h' : Nat) (toks : List Tok) {input input' : Input} (hin : PadsInput ss input input')
    (hvalid : ∀ n, input = .stmt n ∨ input = .expr n → elseOk n = true)
    (hvalid' : ∀ n, input' = .stmt n ∨ input' = .expr n → elseOk n = true) :
    ∃ F, ∀ f, F ≤ f → PadsOutput (anon.nodes ss) (anon.output (autoEnum env f h toks input))
      (anon.output (autoEnum env' f h' toks input')) := by
  obtain ⟨F, hF⟩ := C19 env h toks input hvalid
  obtain ⟨F', hF'⟩ := C19 env' h' toks input' hvalid'
  refine ⟨max F F', fun f hf => ?_⟩
  have h1 : ∀ ps, autoEnum env f h toks input ≠ .panicked ps := by
    intro ps he
    rcases hF with ⟨out, ho⟩ | ⟨es, ho⟩ <;> (rw [ho f (by omega)] at he; cases he)
  have h2 : ∀ ps, autoEnum env' f h' toks input' ≠ .panicked ps := by
    intro ps he
    rcases hF' with ⟨out, ho⟩ | ⟨es, ho⟩ <;> (rw [ho f (by omega)] at he; cases he)
  have h1 := Anon.not_panicked h1
  have h2 := Anon.not_panicked h2
  rw [Anon.output] at h1 h2 ⊢
  rw [Anon.output]
  exact C73_run (env := ⟨fun _ => 0, env.typeAnalysis⟩) (env' := ⟨fun _ => 0, env'.typeAnalysis⟩) ht
    (fun _ _ _ _ => rfl) f 0 toks (Anon.padsInput hin) h1 h2

/-! ## Examples -/

/-- `match a { 0 => #[auto_enum(Iterator)] if c { 1 } else { 2 }, _ => 3, _ => 4 }`. -/
def Ex.twoEnums : Node := .mk .eMatch [] [Ex.var "a",
  Ex.arm "0" (.mk .eIf [⟨.ofIdents ["auto_enum"], .list Ex.iterator⟩] [Ex.var "c",
    .mk .block [] [tailS (Ex.lit "1")], exprBlock [tailS (Ex.lit "2")]]),
  Ex.arm "1" (Ex.lit "3"), Ex.arm "_" (Ex.lit "4")]

/-- Two hashes, for which the code has two enums with different names and with the same name, and the outcomes
are different. -/
example : ∃ out, autoEnum { hash := fun _ => 7 } 20 5 Ex.iterator (.expr Ex.twoEnums) = .code out ∧
    ((enums out).length == 2 && decide (autoEnum { hash := fun _ => 5 } 20 5 Ex.iterator (.expr Ex.twoEnums) ≠
      .code out)) = true :=
  Ex.of_check (o := autoEnum { hash := fun _ => 7 } 20 5 Ex.iterator (.expr Ex.twoEnums))
    (p := fun out => (enums out).length == 2 &&
      decide (autoEnum { hash := fun _ => 5 } 20 5 Ex.iterator (.expr Ex.twoEnums) ≠ .code out)) (by decide +kernel)

/-- Of the input, only identifiers that look like names of generated enums are changed by the comparison; here
nothing is. -/
example : anon.node Ex.twoEnums = Ex.twoEnums ∧ anon.nodes [Ex.padLet, Ex.padPrint] = [Ex.padLet, Ex.padPrint] ∧
    anon.node (Ex.v 5 1 (Ex.var "x")) = Ex.v 0 1 (Ex.var "x") := by decide +kernel

/-- C73_names for a hash that tells code with the added statements from code without them. -/
example : ∃ F, ∀ f, F ≤ f → PadsOutput [Ex.padLet, Ex.padPrint, Ex.padPrint]
    (anon.output (autoEnum { hash := fun n => depth n } f 5 Ex.iterator (.expr (Ex.padIf [] []))))
    (anon.output (autoEnum { hash := fun n => depth n } f 6 Ex.iterator
      (.expr (Ex.padIf [Ex.padLet, Ex.padPrint] [Ex.padPrint])))) := by
  have := C73_names { hash := fun n => depth n } { hash := fun n => depth n } rfl 5 6 Ex.iterator (.expr Ex.padIf_pads)
    (by rintro n (h | h) <;> cases h; decide +kernel) (by rintro n (h | h) <;> cases h; decide +kernel)
  rwa [show anon.nodes [Ex.padLet, Ex.padPrint, Ex.padPrint] = [Ex.padLet, Ex.padPrint, Ex.padPrint] by
    decide +kernel] at this

end AutoEnums
