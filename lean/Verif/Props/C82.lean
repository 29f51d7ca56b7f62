import Verif.Lemmas.Anon
import Verif.Spec.Foreign

/-! # C82: attributes that are not for the macro do not matter -/

namespace AutoEnums

open Spec

namespace Foreign

/-- Replaces attributes and gives all enums the same name. -/
def both (g : Attr → List Attr) : Respelling := { anon with other := g }

variable (g : Attr → List Attr)

theorem ours_eq (a : Attr) : Respelling.ours a = forMacro a := by
  simp [Respelling.ours, forMacro, Bool.or_assoc]

theorem toks (l : List Tok) : (both g).toks l = l := by
  induction l using Respelling.toks.induct with
  | case1 m l ih => rw [Respelling.toks, ih]; rfl
  | case2 t l h ih =>
    rw [Respelling.toks, ih]
    intro m l' h1 h2; exact h _ _ h1 h2
  | case3 => rfl

theorem attr (a : Attr) : (both g).attr a = a := by
  unfold Respelling.attr
  split
  · rename_i h2; obtain ⟨p, f⟩ := a; dsimp only at h2; subst h2; rw [toks]
  · rfl

theorem attrs (as : List Attr) : (both g).attrs as = reattach g as := by
  unfold Respelling.attrs reattach
  simp only [ours_eq, attr]
  rfl

theorem kind (k : Kind) : (both g).kind k = anon.kind k := by cases k <;> rfl

theorem node : ∀ n : Node, (both g).node n = anon.node (reattached g n) := by
  refine Node.ind ?_
  intro k as ks ih
  have hL : ∀ l : List Node, (∀ n ∈ l, n ∈ ks) → (both g).nodes l = anon.nodes (reattachedL g l) := by
    intro l
    induction l with
    | nil => intro _; rw [reattachedL, Respelling.nodes, Respelling.nodes]
    | cons a l ihl =>
      intro h
      rw [reattachedL, Respelling.nodes, Respelling.nodes, ih a (h a (by simp)), ihl fun n hn => h n (by simp [hn])]
  rw [reattached, Anon.node_mk, Respelling.node, kind, attrs, hL ks fun _ h => h]

theorem input (i : Input) : (both g).input i = anon.input (reattachedInput g i) := by
  cases i with
  | stmt n => exact congrArg Input.stmt (node g n)
  | expr n => exact congrArg Input.expr (node g n)
  | invalid => rfl

theorem output (o : Output) : (both g).output o = anon.output (reattachedOutput g o) := by
  cases o with
  | code n => exact congrArg Output.code (node g n)
  | errors l => exact congrArg Output.errors (List.map_congr_left fun e _ => by cases e <;> rfl)
  | panicked l => rfl

theorem harmless : (both g).Harmless where
  labels := Anon.harmless.labels
  macros := Anon.harmless.macros
  knownMacros := Anon.harmless.knownMacros
  known := Anon.harmless.known
  vars := Anon.harmless.vars
  variants := Anon.harmless.variants
  written := Anon.harmless.written

end Foreign

/-- C82: replacing, dropping or adding attributes that are not for the macro gives the outcome with the same
replacements, up to the names of the enums (which come from hashes of the code). -/
theorem C82 (g : Attr → List Attr) (env env' : Env) (ht : env'.typeAnalysis = env.typeAnalysis) (h h' fuel : Nat)
    (toks : List Tok) (input : Input) :
    anon.output (autoEnum env' fuel h' toks (reattachedInput g input)) =
      anon.output (reattachedOutput g (autoEnum env fuel h toks input)) := by
  have h0 : "__Enum0" = "__Enum" ++ toString 0 := by decide +kernel
  have := C58 (Foreign.both g) (Foreign.harmless g) env ⟨fun _ => 0, env.typeAnalysis⟩ rfl
    (fun n => (Anon.enum_name _).trans h0) h 0 ((Anon.enum_name _).trans h0) fuel toks input
  rw [Foreign.toks, Foreign.input, Foreign.output] at this
  rw [Anon.output, ht, this]

/-- C82: two inputs that only differ in attributes that are not for the macro have outcomes that (up to the names
of the enums) only differ in such attributes. -/
theorem C82_same (env env' : Env) (ht : env'.typeAnalysis = env.typeAnalysis) (h h' fuel : Nat) (toks : List Tok)
    (input input' : Input) (hi : reattachedInput dropped input' = reattachedInput dropped input) :
    anon.output (reattachedOutput dropped (autoEnum env' fuel h' toks input')) =
      anon.output (reattachedOutput dropped (autoEnum env fuel h toks input)) := by
  rw [← C82 dropped env' env ht.symm h' h fuel toks input', ← C82 dropped env env rfl h h fuel toks input, hi]

/-- In particular, the same errors are reported. -/
theorem C82_errors (env env' : Env) (ht : env'.typeAnalysis = env.typeAnalysis) (h h' fuel : Nat) (toks : List Tok)
    (input input' : Input) (hi : reattachedInput dropped input' = reattachedInput dropped input) (es : List Err) :
    autoEnum env' fuel h' toks input' = .errors es ↔ autoEnum env fuel h toks input = .errors es := by
  have := C82_same env env' ht h h' fuel toks input input' hi
  cases h1 : autoEnum env fuel h toks input <;> cases h2 : autoEnum env' fuel h' toks input' <;>
    rw [h1, h2] at this <;> simp_all [Respelling.output, Anon.errs, reattachedOutput]

/-! ## Examples -/

def Ex.attrNamed (s : String) : Attr := ⟨.ofIdents [s], .path⟩

/-- `match a { #[x] 0 => #[y] 1, #[y] 1 => #[x] #[never] f(), _ => { #[x] return } , _ => 4 }`, with any `x` and `y`. -/
def Ex.withAttrs (x y : List Attr) : Node := .mk .eMatch x [Ex.var "a",
  .mk (.arm "0") x [.mk (.eLit "1") y []],
  .mk (.arm "1") y [.mk .eCall (x ++ [Ex.attrNamed "never"]) [Ex.var "f"]],
  .mk (.arm "2") [] [exprBlock [tailS (.mk .eReturn x [])]],
  .mk (.arm "_") [] [.mk (.eLit "4") (y ++ x) []]]

/-- Two inputs that only differ in such attributes. -/
example : reattachedInput dropped (.expr (Ex.withAttrs [Ex.attrNamed "cold"] [Ex.attrNamed "allow", Ex.attrNamed "cold"])) =
    reattachedInput dropped (.expr (Ex.withAttrs [] [])) ∧
    Ex.withAttrs [Ex.attrNamed "cold"] [Ex.attrNamed "allow", Ex.attrNamed "cold"] ≠ Ex.withAttrs [] [] := by
  decide +kernel

/-- The attributes of a wrapped literal stay on the literal, and none of them is lost. -/
example : autoEnum Ex.env 20 5 Ex.iterator (.expr (Ex.withAttrs [Ex.attrNamed "cold"] [Ex.attrNamed "allow"])) =
    .code (exprBlock [
      .mk (.sItem (.genEnum "__Enum5" ["__Variant0", "__Variant1"]
        [("__Variant0", "__Variant0"), ("__Variant1", "__Variant1")] [.ofIdents ["Iterator"]])) [] [],
      tailS (.mk .eMatch [Ex.attrNamed "cold"] [Ex.var "a",
        .mk (.arm "0") [Ex.attrNamed "cold"] [Ex.v 5 0 (.mk (.eLit "1") [Ex.attrNamed "allow"] [])],
        .mk (.arm "1") [Ex.attrNamed "allow"] [.mk .eCall [Ex.attrNamed "cold"] [Ex.var "f"]],
        .mk (.arm "2") [] [exprBlock [tailS (.mk .eReturn [Ex.attrNamed "cold"] [])]],
        .mk (.arm "_") [] [Ex.v 5 1 (.mk (.eLit "4") [Ex.attrNamed "allow", Ex.attrNamed "cold"] [])]])]) := by
  decide +kernel

/-- Attributes for the macro are not affected by the replacement, and do matter. -/
example : reattached (fun _ => [Ex.attrNamed "never", Ex.attrNamed "inline"]) (Ex.withAttrs [Ex.attrNamed "cold"] []) =
      Ex.withAttrs [Ex.attrNamed "inline"] [] ∧
    (match autoEnum Ex.env 20 5 Ex.iterator (.expr (Ex.withAttrs [] [Ex.attrNamed "never"])) with
      | .errors [.twoOrMore _ _] => true
      | _ => false) = true := by
  decide +kernel

end AutoEnums
