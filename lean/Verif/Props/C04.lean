import Verif.Lemmas.Edit
import Verif.Lemmas.Skeleton
import Verif.Examples

/-! # C04, C23 and C24: what an expansion changes -/

namespace AutoEnums

open Spec

theorem markerOf_new {h : Nat} {toks : List Tok} {root : Bool} {ms : List String} {d : List Err}
    {ch : Cx} (hn : Cx.new h toks root ms d = .ok ch) : MarkerOf toks ch.marker := by
  obtain ⟨m, h1, _, h3, _⟩ := new_args hn
  refine ⟨ch.args, ?_⟩
  rw [h3]
  cases m with
  | some m => exact .inl ((parseArgs_iff _ _ _).mp h1)
  | none => exact .inr ⟨(parseArgs_iff _ _ _).mp h1, rfl⟩

theorem permit_inner {env : Env} {inp : Node} {A : Allow}
    (hw : ∀ en, InnerEnum env.hash inp en → A.wraps en)
    (ht : ∀ en, InnerEnum env.hash inp en → A.tries en)
    (hm : ∀ en m, (∃ ts, InnerArgs inp ts ∧ MarkerOf ts m) →
      (∃ n, en = "__Enum" ++ toString (env.hash n)) → A.marks en m) : PermitInner env inp A := by
  intro a ha hp n1 toks ms ch hform hnew
  obtain ⟨m, _, h2, _⟩ := new_args hnew
  have hi : InnerArgs inp toks := ⟨a, ha, hp, hform⟩
  have he : InnerEnum env.hash inp ch.ident := ⟨⟨_, hi⟩, n1, h2⟩
  exact ⟨⟨_, h2⟩, by rw [(new_fresh hnew).variants]; rfl,
    hm _ _ ⟨_, hi, markerOf_new hnew⟩ he.2, .inr ⟨fun _ => hw _ he, fun _ => ht _ he⟩⟩

/-- C04: the output of a successful expansion is obtained from its input by the listed edits, where
constructors belong to the enum of the attribute or of an inner attribute and only marker calls of
these attributes are replaced. -/
theorem C04_edits (env : Env) (fuel h : Nat) (toks : List Tok) (input : Input)
    (n out : Node) (hin : input = .stmt n ∨ input = .expr n)
    (hrun : autoEnum env fuel h toks input = .code out) :
    Edit (permitted env.typeAnalysis env.hash h toks n) n out := by
  obtain ⟨cx, m, cx', hnew, hm, ht, he, _⟩ := autoEnum_trace hrun
  have : m = n := by
    rcases hin with rfl | rfl <;> rcases hm with hm | hm <;> first | cases hm; rfl | cases hm
  subst this
  obtain ⟨_, _, h2, _⟩ := new_args hnew
  have hf := new_fresh hnew
  refine (ht.edit he ?_ (ok_self _) (permit_inner (fun _ h => Or.inr h) (fun _ h => Or.inr h) ?_) id).2
  · exact ⟨⟨h, h2⟩, by rw [hf.variants]; rfl, .inl ⟨h2, markerOf_new hnew⟩,
      .inr ⟨fun _ => .inl h2, fun _ => .inl h2⟩⟩
  · exact fun en m hm hn => .inr ⟨hm, hn⟩

theorem sane_permitted {env : Env} {h : Nat} {toks : List Tok} {n : Node} {M : String → Bool}
    (hM : ∀ m, MarkerOf toks m ∨ (∃ ts, InnerArgs n ts ∧ MarkerOf ts m) → M m = true) :
    (permitted env.typeAnalysis env.hash h toks n).Sane M := by
  refine ⟨?_, ?_, ?_⟩
  · rintro en (h | ⟨_, _, h⟩) <;> exact ⟨_, h⟩
  · rintro en (h | ⟨_, _, h⟩) <;> exact ⟨_, h⟩
  · rintro en m (⟨h1, h2⟩ | ⟨h2, _, h1⟩)
    · exact ⟨hM m (.inl h2), _, h1⟩
    · exact ⟨hM m (.inr h2), _, h1⟩

/-- C04: nothing else is dropped, duplicated or reordered: the contents of all nodes are the same
sequence before and after, where `M` holds of the markers of all attributes. -/
theorem C04_skeleton (env : Env) (fuel h : Nat) (toks : List Tok) (input : Input)
    (n out : Node) (hin : input = .stmt n ∨ input = .expr n)
    (hrun : autoEnum env fuel h toks input = .code out) (M : String → Bool)
    (hM : ∀ m, MarkerOf toks m ∨ (∃ ts, InnerArgs n ts ∧ MarkerOf ts m) → M m = true) :
    skeleton M out = skeleton M n :=
  (C04_edits env fuel h toks input n out hin hrun).skeleton (sane_permitted hM)

/-- C23: items, statement macros and macro calls other than markers are copied verbatim, in the same
order. -/
theorem C23_verbatim (env : Env) (fuel h : Nat) (toks : List Tok) (input : Input)
    (n out : Node) (hin : input = .stmt n ∨ input = .expr n)
    (hrun : autoEnum env fuel h toks input = .code out) (M : String → Bool)
    (hM : ∀ m, MarkerOf toks m ∨ (∃ ts, InnerArgs n ts ∧ MarkerOf ts m) → M m = true) :
    foreign M out = foreign M n :=
  (C04_edits env fuel h toks input n out hin hrun).foreign (sane_permitted hM)

/-- C24: on a statement with a trailing semicolon the attribute itself only replaces its markers
(wrapping and `?` are left to inner attributes). -/
theorem C24_semi (env : Env) (fuel h : Nat) (toks : List Tok) (as : List Attr) (e out : Node)
    (hrun : autoEnum env fuel h toks (.stmt (.mk (.sExpr true) as [e])) = .code out) :
    Edit (permittedSemi env.typeAnalysis env.hash h toks (.mk (.sExpr true) as [e]))
      (.mk (.sExpr true) as [e]) out := by
  obtain ⟨cx, cx', hnew, hex, h4, _⟩ := autoEnum_code hrun
  · obtain ⟨_, _, h2, _⟩ := new_args hnew
    have hf := new_fresh hnew
    simp only [expandInput, expandParentStmt, expandParentExpr, if_true, Option.some.injEq,
      Prod.mk.injEq] at hex
    obtain ⟨rfl, rfl⟩ := hex
    have hm : ({ cx with lastMode := .never } : Cx).mode = .default := hf.mode
    have ht : T env true { cx with lastMode := .never } e
        (if ({ cx with lastMode := .never } : Cx).isDummy then
          dummyExpr (visit env fuel) { cx with lastMode := .never } e
          else expandBuild env (visit env fuel) { cx with lastMode := .never } e).1
        (if ({ cx with lastMode := .never } : Cx).isDummy then
          dummyExpr (visit env fuel) { cx with lastMode := .never } e
          else expandBuild env (visit env fuel) { cx with lastMode := .never } e).2 := by
      split
      · exact .exPlain (dummyExpr_tr (visit_good env fuel) _ _ (inv_default hm))
          (by rw [dummyExpr_variants (visit_good env fuel)]; exact hf.variants)
      · exact expandBuild_ex (visit_good env fuel) _ _ hm
    have hok : Ok (.mk (.sExpr true) as [e]) e := (ok_mk.mp (ok_self _)).2 e (by simp)
    have he := (ht.edit (A := permittedSemi env.typeAnalysis env.hash h toks
      (.mk (.sExpr true) as [e])) h4 ?_ hok (permit_inner (fun _ => id) (fun _ => id)
        (fun en m hm hn => .inr ⟨hm, hn⟩)) id).2
    · exact Edit.kid (pre := []) (post := []) rfl he
    · exact ⟨⟨h, h2⟩, by show cx.variants = (List.range cx.variants.length).map _
                         rw [hf.variants]; rfl, Or.inl ⟨h2, (markerOf_new hnew : MarkerOf toks cx.marker)⟩, .inl rfl⟩

/-- The hypotheses of C04 and C23 are met by a `let` with an inner attribute, whose markers are all
called `marker`. -/
example : autoEnum Ex.env 20 5 Ex.iterator (.stmt Ex.letIn) = .code Ex.letOut ∧
    ∀ m, MarkerOf Ex.iterator m ∨ (∃ ts, InnerArgs Ex.letIn ts ∧ MarkerOf ts m) →
      (m == "marker") = true := by
  refine ⟨Ex.let_run, ?_⟩
  have key : ∀ m, MarkerOf Ex.iterator m → m = "marker" := by
    rintro m ⟨args, h | ⟨_, h⟩⟩
    · rw [← parseArgs_iff] at h
      cases h
    · exact h
  rintro m (h | ⟨ts, ⟨a, ha, _, hf⟩, h⟩)
  · simp [key m h]
  · have : allAttrs Ex.letIn = [⟨.ofIdents [NAME], .list Ex.iterator⟩] := by decide +kernel
    rw [this, List.mem_singleton] at ha
    subst ha
    rcases hf with hf | ⟨hf, _⟩
    · cases hf; simp [key m h]
    · cases hf

/-- `if c { marker!(1) } else { marker!(2) };` -/
def Ex.semiIn : Node := semiS (.mk .eIf [] [Ex.var "c", .mk .block [] [tailS (Ex.marker (Ex.lit "1"))],
  exprBlock [tailS (Ex.marker (Ex.lit "2"))]])

/-- The hypothesis of C24 is met by a statement with two markers, which are replaced. -/
example : ∃ out, autoEnum Ex.env 20 5 Ex.iterator (.stmt Ex.semiIn) = .code out ∧
    ((enums out).map (·.variants.length) == [2]) = true :=
  Ex.of_check (by decide +kernel)

end AutoEnums
