import Verif.Lemmas.TidyRun
import Verif.ExamplesAccepted

/-! # C15: no helper attribute is left over -/

namespace AutoEnums

open Spec

theorem exists_of_visibleL {l : Label} {ns : List Node} (h : l ∈ visibleL ns) :
    ∃ n ∈ ns, l ∈ visible n := by
  induction ns with
  | nil => simp [visibleL] at h
  | cons n ns ih =>
    simp only [visibleL, List.mem_append] at h
    rcases h with h | h
    · exact ⟨n, by simp, h⟩
    · obtain ⟨c, hc, h⟩ := ih h
      exact ⟨c, by simp [hc], h⟩

theorem throughout_visible {P : Kind → List Attr → List Kind → Prop} : ∀ n, Throughout P n →
    ∀ l ∈ visible n, ∃ kids, P l.1 l.2 kids := by
  refine Node.ind (P := fun n => Throughout P n → ∀ l ∈ visible n, ∃ kids, P l.1 l.2 kids) ?_
  intro k as ks ih h l hl
  rw [throughout_mk] at h
  rw [visible] at hl
  rw [List.mem_cons] at hl
  rcases hl with rfl | hl
  · exact ⟨_, h.1⟩
  · split at hl
    · simp at hl
    · rename_i hk
      obtain ⟨c, hc, hl⟩ := exists_of_visibleL hl
      exact ih c hc (h.2.2 (by simpa using hk) c hc) l hl

/-- C15: after a successful expansion of an attribute with at least one trait there is no `auto_enum`,
`nested` or `never` attribute on any expression, arm or `let` outside of macro calls and nested items.
The input may contain inner attributes at any depth.

Partial: besides the condition that no node carries the same helper attribute twice, the input is assumed
to be `Neat`, which rules out the cases in which helper attributes do survive (`C15_fails`), and an
attributed closure must not carry another `#[auto_enum]`. -/
theorem C15_partial (env : Env) (traits : List Path) (en : Ident) (m : String) (n out : Node)
    (h : Accepted env traits en m n out) (hn : isTarget n = true)
    (hc : ∀ i as b, targetOf n = .mk (.eClosure i) as [b] → ∀ a ∈ as, named "auto_enum" a = false)
    (hneat : Throughout Neat (targetOf n)) :
    ∀ l ∈ visible (targetOf out), carries l.1 = true → ∀ a ∈ l.2,
      named "auto_enum" a = false ∧ named "nested" a = false ∧ named "never" a = false := by
  obtain ⟨fuel, g, toks, marker, input, h1, h2, h3, h4, h5⟩ := h.run
  obtain ⟨cx, cx', hnew, _, _, hr⟩ := code_run h5
  obtain ⟨mk, h6, _⟩ := new_args hnew
  rw [← parseArgs_iff, h6] at h1
  simp only [Except.ok.injEq, Args.mk.injEq] at h1
  have hargs : cx.args ≠ [] := by rw [h1.1]; exact h.some
  have hcl : ClosureBare (targetOf n) := by
    intro i as b he a ha
    have := hneat.top
    rw [he] at this
    have h7 := this.closure i rfl a ha
    simp [helper, hc i as b he a ha, h7.1, h7.2]
  have hbare : Throughout Bare (targetOf out) := by
    rcases h4 with ⟨rfl, he⟩ | ⟨rfl, he⟩
    · rcases hr with ⟨n', hn', _⟩ | ⟨n', hn', hr⟩
      · cases hn'
      · cases hn'
        rw [isExprNode_eq'] at he
        have ht : ∀ x : Node, x.kind.isExpr = true → targetOf x = x := by
          intro x hx
          cases x with | mk k as ks => cases k <;> first | rfl | (simp [Kind.isExpr, Node.kind] at hx; done)
        rw [ht n he] at hneat hcl
        rw [ht out (Run.shape hr he)]
        exact Run.tidies hr hargs he hcl hneat
    · rcases hr with ⟨n', hn', hr⟩ | ⟨n', hn', _⟩
      · cases hn'
        refine Run.tidies hr hargs ?_ hcl hneat
        unfold isTarget at hn
        split at hn
        · exact .inl ⟨_, _, _, rfl, by rw [← isExprNode_eq']; exact hn⟩
        · exact .inr (.inl ⟨_, _, _, _, rfl, by rw [← isExprNode_eq']; exact hn⟩)
        · exact .inr (.inr ⟨_, _, _, _, _, rfl⟩)
        · rw [he] at hn; cases hn
      · cases hn'
  intro l hl hcar a ha
  obtain ⟨kids, hb⟩ := throughout_visible _ hbare l hl
  exact helper_false (hb.none hcar a ha)

/-! ## Where it fails -/

/-- `match x { 0 => 1, 1 => 2, _ => e }` as the input of the outer attribute. -/
def Ex.around (e : Node) : Node :=
  .mk .eMatch [] [Ex.var "x", Ex.arm "0" (Ex.lit "1"), Ex.arm "1" (Ex.lit "2"), Ex.arm "_" e]

/-- `if c { 2 } else { 3 }` with attributes. -/
def Ex.cond (as : List Attr) (a : Node) : Node :=
  .mk .eIf as [Ex.var "c", .mk .block [] [tailS a], exprBlock [tailS (Ex.lit "3")]]

/-- `#[auto_enum(Iterator)]` -/
def Ex.inner : Attr := ⟨.ofIdents [NAME], .list Ex.iterator⟩

/-- A node with a helper attribute named `s` of the kind `p` is visible. -/
def Ex.leftover (s : String) (p : Kind → Bool) (n : Node) : Bool :=
  (visible n).any fun l => p l.1 && l.2.any (Spec.named s)

/-- None of these inputs has the same helper attribute twice on a node, yet after a successful expansion
there remains
* the `#[never]` of a `let` with `#[auto_enum(..)]`: the outer attribute leaves it alone
  (`visitor.rs:49-61`, `foreign`) and the inner one visits the initialiser only (`mod.rs:140-152`),
* the `#[never]` of a closure with `#[auto_enum(..)]`: the closure itself is not visited,
* a `#[nested]` in the region of a dummy attribute `#[auto_enum()]`,
* `#[auto_enum(..)]` on an arm. -/
theorem C15_fails :
    (∃ out, autoEnum Ex.env 20 5 Ex.iterator (.expr (Ex.around (exprBlock [
        .mk (.sLocal (.plain "y")) [Ex.inner, Ex.helper "never"] [Ex.cond [] (Ex.lit "2")],
        tailS (Ex.var "y")]))) = .code out ∧
      Ex.leftover "never" (fun k => k matches .sLocal _) out = true) ∧
    (∃ out, autoEnum Ex.env 20 5 Ex.iterator (.expr (Ex.around (Ex.call "f" [
        .mk (.eClosure "") [Ex.inner, Ex.helper "never"] [Ex.cond [] (Ex.lit "2")]]))) = .code out ∧
      Ex.leftover "never" (fun k => k matches .eClosure _) out = true) ∧
    (∃ out, autoEnum Ex.env 20 5 Ex.iterator (.expr (Ex.around (Ex.call "f" [
        Ex.cond [⟨.ofIdents [NAME], .list []⟩] (Ex.cond [Ex.helper "nested"] (Ex.lit "2"))]))) = .code out ∧
      Ex.leftover "nested" (fun k => k matches .eIf) out = true) ∧
    (∃ out, autoEnum Ex.env 20 5 Ex.iterator (.expr (.mk .eMatch [] [Ex.var "x",
        .mk (.arm "0") [Ex.inner] [Ex.lit "1"], Ex.arm "_" (Ex.lit "2")])) = .code out ∧
      Ex.leftover "auto_enum" (fun k => k matches .arm _) out = true) :=
  ⟨Ex.of_check (by decide +kernel), Ex.of_check (by decide +kernel), Ex.of_check (by decide +kernel),
    Ex.of_check (by decide +kernel)⟩

/-! ## A case that meets the hypotheses -/

/-- A sufficient check for `Neat`. -/
def Ex.neat (k : Kind) (as : List Attr) (kids : List Kind) : Bool :=
  ["auto_enum", "nested", "never"].all (fun s => decide (countNamed s as ≤ 1)) &&
  as.all (fun a => !Spec.named "auto_enum" a || (match a.form with
    | .list toks => (match parseArgs toks with | .ok ⟨[], _⟩ => false | _ => true)
    | _ => false) && !(k matches .arm _) && !(k matches .sLocal _)) &&
  !(k matches .eClosure _) &&
  match k with
  | .sExpr _ => decide (kids.length = 1) && kids.all isExpression
  | _ => true

theorem Ex.neat_sound {k : Kind} {as : List Attr} {kids : List Kind} (h : Ex.neat k as kids = true) :
    Neat k as kids := by
  simp only [Ex.neat, Bool.and_eq_true, List.all_eq_true, decide_eq_true_eq] at h
  obtain ⟨⟨⟨h1, h2⟩, h3⟩, h4⟩ := h
  refine ⟨fun _ => h1, ?_, ?_, ?_⟩
  · intro _ a ha hn
    have := h2 a ha
    rw [hn] at this
    simp only [Bool.not_true, Bool.false_or, Bool.and_eq_true] at this
    obtain ⟨⟨h5, h6⟩, h7⟩ := this
    refine ⟨?_, ?_, ?_, ?_⟩
    · split at h5
      · rename_i toks he
        refine ⟨toks, he, fun m hm => ?_⟩
        rw [← parseArgs_iff] at hm
        rw [hm] at h5
        cases h5
      · cases h5
    · rintro p rfl; cases h6
    · rintro p rfl; cases h7
    · rintro p rfl; cases h7
  · rintro i rfl; cases h3
  · rintro b rfl
    simp only [Bool.and_eq_true, decide_eq_true_eq] at h4
    obtain ⟨h5, h6⟩ := h4
    match kids, h5, h6 with
    | [k'], _, h6 => exact ⟨k', rfl, .inl (by simpa using h6)⟩

mutual
def Ex.isNeat : Node → Bool
  | .mk k as ks => Ex.neat k as (ks.map (·.kind)) && !macroCall k && Ex.isNeatL ks
def Ex.isNeatL : List Node → Bool
  | [] => true
  | n :: ns => Ex.isNeat n && Ex.isNeatL ns
end

mutual
theorem Ex.isNeat_sound : ∀ n, Ex.isNeat n = true → Throughout Neat n
  | .mk k as ks, h => by
    simp only [Ex.isNeat, Bool.and_eq_true, Bool.not_eq_true'] at h
    rw [Throughout]
    exact ⟨Ex.neat_sound h.1.1, (fun h' => by rw [h.1.2] at h'; cases h'), fun _ => Ex.isNeatL_sound ks h.2⟩
theorem Ex.isNeatL_sound : ∀ ns, Ex.isNeatL ns = true → ThroughoutL Neat ns
  | [], _ => trivial
  | n :: ns, h => by
    simp only [Ex.isNeatL, Bool.and_eq_true] at h
    exact ⟨Ex.isNeat_sound n h.1, Ex.isNeatL_sound ns h.2⟩
end

/-- ```
match x {
    #[never] 0 => 1,
    1 => 2,
    2 => 3,
    _ => {
        #[nested] let y = if c { f(#[auto_enum(Iterator)] match x { 0 => 4, 1 => 4, 2 => #[never] 5 }) } else { 3 };
        #[nested] match x { 0 => 4, 1 => 4 }
    }
}
``` -/
def Ex.untidy : Node := .mk .eMatch [] [Ex.var "x",
  .mk (.arm "0") [Ex.helper "never"] [Ex.lit "1"], Ex.arm "1" (Ex.lit "2"), Ex.arm "2" (Ex.lit "3"),
  Ex.arm "_" (exprBlock [
    .mk (.sLocal (.plain "y")) [Ex.helper "nested"] [Ex.cond []
      (Ex.call "f" [.mk .eMatch [Ex.inner] [Ex.var "x", Ex.arm "0" (Ex.lit "4"), Ex.arm "1" (Ex.lit "4"),
        Ex.arm "2" (.mk (.eLit "5") [Ex.helper "never"] [])]])],
    tailS (.mk .eMatch [Ex.helper "nested"] [Ex.var "x", Ex.arm "0" (Ex.lit "4"), Ex.arm "1" (Ex.lit "4")])])]

example : ∃ out, autoEnum Ex.env 20 5 Ex.iterator (.expr Ex.untidy) = .code out ∧
    ∀ l ∈ visible out, carries l.1 = true → ∀ a ∈ l.2,
      Spec.named "auto_enum" a = false ∧ Spec.named "nested" a = false ∧ Spec.named "never" a = false := by
  obtain ⟨out, h, ho⟩ := Ex.of_check (o := autoEnum Ex.env 20 5 Ex.iterator (.expr Ex.untidy))
    (p := fun o => o matches .mk (.eBlock none) _ _) (by decide +kernel)
  refine ⟨out, h, ?_⟩
  have := C15_partial Ex.env [.ofIdents ["Iterator"]] "__Enum5" "marker" Ex.untidy out
    (Ex.accepted_expr rfl h) rfl (fun i as b h => by cases h) (Ex.isNeat_sound _ (by decide +kernel))
  cases out with
  | mk k as ks => cases k <;> first | exact this | cases ho

end AutoEnums
