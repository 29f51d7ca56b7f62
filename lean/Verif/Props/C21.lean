import Verif.Lemmas.Inner
import Verif.Examples

/-! # C21: marker names of inner attributes -/

namespace AutoEnums

open Spec

/-- C21: an inner attribute that declares the marker of the enclosing attribute (which is `marker` by
default) is rejected, for any kind of input, dummy or not.

Partial: for inner attributes that are not in the region of another inner attribute; the others are not
compared with anything (`C21_depth_fails`).  An attributed closure must not carry the inner attribute
itself. -/
theorem C21_partial (env : Env) (fuel h : Nat) (toks : List Tok) (traits : List Path) (mk : Option Ident)
    (n : Node) (hargs : IsArgs toks traits mk) (hn : isTarget n = true)
    (hc : ∀ i as b, targetOf n = .mk (.eClosure i) as [b] → ∀ a ∈ as, named "auto_enum" a = false)
    (a : Attr) (ha : a ∈ inners (targetOf n)) (hd : Declares a (mk.getD "marker"))
    (input : Input) (hi : input = .expr n ∧ isExprNode n = true ∨ input = .stmt n ∧ isExprNode n = false)
    (out : Node) : autoEnum env fuel h toks input ≠ .code out := by
  intro hrun
  obtain ⟨cx, cx', hnew, _, _, h1⟩ := code_run hrun
  obtain ⟨m, h2, _, h3, h4, _⟩ := new_args hnew
  rw [← parseArgs_iff, h2] at hargs
  simp only [Except.ok.injEq, Args.mk.injEq] at hargs
  have hk : NoneKnown cx (inners (targetOf n)) := by
    rcases hi with ⟨rfl, he⟩ | ⟨rfl, he⟩
    · rcases h1 with ⟨n', h, _⟩ | ⟨n', h, hr⟩
      · cases h
      · cases h
        have ht : targetOf n = n := by
          cases n with | mk k as ks => cases k <;> first | rfl | (simp [isExprNode, Node.kind] at he; done)
        rw [ht] at hc ⊢
        exact Run.markers hr (by rw [← isExprNode_eq']; exact he) hc
    · rcases h1 with ⟨n', h, hr⟩ | ⟨n', h, _⟩
      · cases h
        exact Run.markers hr hn (by rw [← isExprNode_eq']; exact he) hc
      · cases h
  refine hk a ha _ hd ?_
  rw [h4, h3, hargs.2]
  simp [DEFAULT_MARKER]

/-! ## Where it fails -/

/-- `match x { 0 => 1, 1 => 2, _ => e }` with attributes. -/
def Ex.three (as : List Attr) (e : Node) : Node :=
  .mk .eMatch as [Ex.var "x", Ex.arm "0" (Ex.lit "1"), Ex.arm "1" (Ex.lit "2"), Ex.arm "_" e]

/-- `#[auto_enum(Iterator, marker = m)]` -/
def Ex.named (m : String) : Attr :=
  ⟨.ofIdents ["auto_enum"], .list [.ident "Iterator", .comma, .ident "marker", .eq, .ident m]⟩

/-- The marker of an attribute inside an inner attribute may be that of either of the attributes around
it.  (`context.rs:129-138` takes the list of markers out of the context while the region of the inner
attribute is visited, which is when the attributes inside of it are expanded.) -/
theorem C21_depth_fails : ∀ m ∈ ["a", "b"], ∃ out, autoEnum Ex.env 20 5
      [.ident "Iterator", .comma, .ident "marker", .eq, .ident "a"]
      (.expr (Ex.three [] (Ex.three [Ex.named "b"] (Ex.three [Ex.named m] (Ex.lit "3"))))) = .code out ∧
    isExprNode out = true := by
  intro m hm
  simp only [List.mem_cons, List.not_mem_nil, or_false] at hm
  rcases hm with rfl | rfl
  · exact Ex.of_check (by decide +kernel)
  · exact Ex.of_check (by decide +kernel)

/-! ## A case that meets the hypotheses -/

/-- In `match x { 0 => 1, 1 => 2, _ => #[auto_enum(Iterator, marker = a)] match x { 0 => 1, .. } }` the marker
`a` is not available to the outer attribute. -/
example (out : Node) : autoEnum Ex.env 20 5 [.ident "Iterator", .comma, .ident "marker", .eq, .ident "a"]
    (.expr (Ex.three [] (Ex.three [Ex.named "a"] (Ex.lit "3")))) ≠ .code out :=
  C21_partial Ex.env 20 5 _ [.ofIdents ["Iterator"]] (some "a") _
    (parseArgs_iff _ _ _ |>.mp rfl) rfl (fun i as b h => by cases h) (Ex.named "a")
    (by decide +kernel) ⟨_, [.ofIdents ["Iterator"]], rfl, parseArgs_iff _ _ _ |>.mp rfl⟩ _ (.inl ⟨rfl, rfl⟩) out

end AutoEnums
