import Verif.Lemmas.Frames
import Verif.Lemmas.Whole
import Verif.Lemmas.Scope
import Verif.Spec.Whole
import Verif.Props.C69

/-! # C72: the attribute looks through parentheses, blocks, unsafe blocks and method calls -/

namespace AutoEnums

open Spec

theorem finish_put (r : Cx × Node) (g : Node → Node) : finish (r.1, g r.2) = Spec.Output.put g (finish r) := by
  unfold finish
  dsimp only
  split
  · split <;> rfl
  · rfl

/-- What `expand_expr` does to an expression other than a closure. -/
theorem expandExpr_open {e : Node} (h : closes e.kind = false) (env : Env) (rec : Rec) (cx : Cx) :
    expandExpr env rec cx e = expandTarget env rec cx e := by
  unfold expandExpr
  split
  · cases h
  · rfl

theorem around_isExpr {e : Node} (he : e.kind.isExpr = true) : ∀ Fs, (framed Fs e).kind.isExpr = true
  | [] => he
  | (F, as) :: Fs => (Frames.around_facts F as (framed Fs e)).1

theorem around_closes {e : Node} (he : closes e.kind = false) : ∀ Fs, closes (framed Fs e).kind = false
  | [] => he
  | (F, _) :: _ => by cases F <;> rfl

theorem child_arounds (c : Cx) (e : Node) : ∀ Fs, bareFrames Fs = true →
    childExpr c (framed Fs e) = ((childExpr c e).1, framed Fs (childExpr c e).2)
  | [], _ => rfl
  | (F, as) :: Fs, h => by
    simp only [bareFrames, List.all_cons, Bool.and_eq_true] at h
    rw [framed, Frames.child_around c F h.1.1, child_arounds c e Fs (by simpa [bareFrames] using h.2)]
    rfl

theorem visit_arounds (env : Env) (f : Nat) (vk : VK) (c : Cx) {e : Node} (he : e.kind.isExpr = true) : ∀ Fs,
    bareFrames Fs = true → (∀ F ∈ Fs, depthL F.1.rest ≤ f + 1) →
    visit env (f + 1 + Fs.length) vk {} c (framed Fs e) =
      ((visit env (f + 1) vk {} c e).1, framed Fs (visit env (f + 1) vk {} c e).2)
  | [], _, _ => rfl
  | (F, as) :: Fs, h, hd => by
    simp only [bareFrames, List.all_cons, Bool.and_eq_true] at h
    have ih := visit_arounds env f vk c he Fs (by simpa [bareFrames] using h.2) fun F hF => hd F (by simp [hF])
    rw [show f + 1 + Fs.length = f + Fs.length + 1 by omega] at ih
    have h0 : depthL F.rest ≤ f + 1 := hd (F, as) (by simp)
    rw [framed, List.length_cons, show f + 1 + (Fs.length + 1) = f + Fs.length + 2 by omega,
      Frames.visit_around env (f + Fs.length) vk c F h.1.1 h.1.2 (by omega) _ (around_isExpr he Fs), ih]
    rfl

theorem expandTarget_around (env : Env) (f : Nat) (c : Cx) (Fs : List (Frame × List Attr)) (hi : bareFrames Fs = true)
    (hd : ∀ F ∈ Fs, depthL F.1.rest ≤ f + 1) (e : Node) (he : e.kind.isExpr = true) :
    expandTarget env (visit env (f + 1 + Fs.length)) c (framed Fs e) =
      ((expandTarget env (visit env (f + 1)) c e).1, framed Fs (expandTarget env (visit env (f + 1)) c e).2) := by
  have hk : (childExpr c e).2.kind.isExpr = true := by rw [Frames.child_isExpr]; exact he
  unfold expandTarget
  rw [child_arounds c e Fs hi]
  dsimp only
  split
  · exact visit_arounds env f .dummy _ hk Fs hi hd
  · exact visit_arounds env f .visitor _ hk Fs hi hd

/-- C72: around an expression (other than a closure) that is annotated with `#[auto_enum(..)]`, parentheses, blocks, unsafe
blocks and method calls change nothing.

With the frames the macro reports the same errors, or puts the frames around what it makes of the expression (`o`),
and before that the same declaration of an enum (`d`).  There is none if the attribute has no trait among its
arguments; otherwise there is one for all ordinary code without inner attributes.

The code beside the expression must have nothing to do for the macro, and the frames none of the macro's
attributes.  `fuel` is enough in all cases for which C19 gives it; every frame takes one more step. -/
theorem C72 (env : Env) (fuel h : Nat) (toks : List Tok) (traits : List Path) (mk : Option Ident)
    (hargs : IsArgs toks traits mk) (Fs : List (Frame × List Attr)) (hi : bareFrames Fs = true) (e : Node) (he : isExprNode e = true) (hc : closes e.kind = false)
    (hfuel : 1 ≤ fuel) (hd : ∀ F ∈ Fs, depthL F.1.rest ≤ fuel) :
    ∃ (o : Output) (d : Option Node),
      autoEnum env fuel h toks (.expr e) = Spec.Output.put (declare d) o ∧
      autoEnum env (fuel + Fs.length) h toks (.expr (framed Fs e)) =
        Spec.Output.put (fun body => declare d (framed Fs body)) o ∧
      (∀ item, d = some item → ∃ vs cs ts,
        item = .mk (.sItem (.genEnum ("__Enum" ++ toString h) vs cs ts)) [] []) ∧
      (traits = [] → d = none) ∧
      (traits ≠ [] → ordinaryExpr ("__Enum" ++ toString h) (mk.getD "marker") false e = true →
        (∃ body, o = .code body) → d ≠ none) := by
  obtain ⟨f, rfl⟩ : ∃ f, fuel = f + 1 := ⟨fuel - 1, by omega⟩
  unfold autoEnum
  cases hnew : Cx.new h toks true [] [] with
  | error e => exact ⟨.errors [e], none, rfl, rfl, by simp, by simp, by rintro _ _ ⟨_, h⟩; cases h⟩
  | ok cx =>
    have hf := new_fresh hnew
    obtain ⟨m, p1, p2, p3, _, p4, _, _, p7, _⟩ := new_args hnew
    rw [(parseArgs_iff _ _ _).mpr hargs] at p1
    cases p1
    have he' : e.kind.isExpr = true := he
    simp only [expandInput, expandParentExpr, Bool.false_eq_true, if_false]
    by_cases hdm : cx.isDummy = true
    · simp only [hdm, if_true, dummyExpr]
      refine ⟨finish (visit env (f + 1) .dummy {} (cx.assert cx.args.isEmpty .dummyArgs) e), none,
        finish_put (g := fun n => n) _, ?_, by simp, by simp, ?_⟩
      · rw [← finish_put]
        exact congrArg finish (visit_arounds env f .dummy _ he' Fs hi hd)
      · intro ht
        simp only [Cx.isDummy, Bool.and_eq_true, List.isEmpty_iff] at hdm
        exact absurd hdm.1 ht
    · simp only [hdm, Bool.false_eq_true, if_false, expandBuild]
      rw [expandExpr_open hc, expandExpr_open (around_closes hc Fs), expandTarget_around env f cx Fs hi hd e he']
      dsimp only
      have htr : cx.args ≠ [] := by
        intro ht
        rw [Cx.isDummy, ht, hf.traits] at hdm
        exact hdm rfl
      have hch := fun hcl ho => (expandExpr_treats (visit_run env (f + 1)) (cx := cx) (e := e) hcl p4 hf.mode
        (.of_args htr e) ho).2.1
      have hid : (expandTarget env (visit env (f + 1)) cx e).1.ident = cx.ident :=
        ((expandTarget_tr (visit_good env (f + 1)) cx e (inv_default hf.mode)).grows').1
      rw [expandExpr_open hc] at hch
      generalize hT : expandTarget env (visit env (f + 1)) cx e = r at hch hid ⊢
      cases hB : r.1.build with
      | mk c d =>
        refine ⟨finish (c, r.2), d, ?_, ?_, ?_, fun ht => absurd ht htr, ?_⟩
        · cases d with
          | none => exact finish_put (c, r.2) fun n => n
          | some item => exact finish_put (c, r.2) _
        · cases d with
          | none => exact finish_put (c, r.2) _
          | some item => exact finish_put (c, r.2) fun body => declare (some item) (framed Fs body)
        · rintro item rfl
          unfold Cx.build at hB
          split at hB
          · cases hB
          · split at hB
            · cases hB
            · split at hB
              · cases hB
              · cases hB
                rw [Cx.buildEnum, hid, p2]
                exact ⟨_, _, _, rfl⟩
        · rintro _ ho ⟨body, hcode⟩ rfl
          have hcl : Clean r.1.build.1 := by
            rw [hB]
            unfold finish at hcode
            dsimp only at hcode
            split at hcode
            · rename_i g1
              split at hcode
              · rename_i g2
                exact ⟨by simpa using g2, by simpa using g1⟩
              · cases hcode
            · cases hcode
          obtain ⟨⟨b0, bv⟩, b1, b2⟩ := build_clean hcl
          have hv : r.1.variants = [] := by
            rw [hB] at b2
            dsimp only at b2
            cases hv : r.1.variants with
            | nil => rfl
            | cons a l => rw [hv] at b2; cases b2
          have hhc := hch b0 (by
            rw [hf.lastMode, p2, p3]
            exact ho)
          rw [p7] at hhc
          rcases bv with bv | ⟨_, bv⟩
          · rw [hv] at bv; simp at bv
          · rw [hhc] at bv; cases bv

/-- `match a { 0 => b, _ => c }`. -/
def Ex.plainMatch : Node :=
  .mk .eMatch [] [Ex.var "a", Ex.arm "0" (Ex.var "b"), Ex.arm "_" (Ex.var "c")]

/-- `unsafe { let x = y; (_).map(f) }`. -/
def Ex.frames : List (Frame × List Attr) :=
  [(.unsafeBlock [.mk (.sLocal (.plain "x")) [] [Ex.var "y"]], []), (.methodCall "map" [Ex.var "f"], []), (.paren, [])]

/-- The hypotheses are met by `unsafe { let x = y; (match a { 0 => b, _ => c }).map(f) }`, of which the expansion
is `{ enum .. {..} unsafe { let x = y; (match a { 0 => Enum::A(b), _ => Enum::B(c) }).map(f) } }`. -/
example : framed Ex.frames Ex.plainMatch = .mk .eUnsafe [] [.mk (.sLocal (.plain "x")) [] [Ex.var "y"],
      .mk (.sExpr false) [] [.mk (.eMethodCall "map") [] [.mk .eParen [] [Ex.plainMatch], Ex.var "f"]]] ∧
    ∃ item body, autoEnum Ex.env 40 5 Ex.iterator (.expr Ex.plainMatch) = .code (declare (some item) body) ∧
      autoEnum Ex.env (40 + Ex.frames.length) 5 Ex.iterator (.expr (framed Ex.frames Ex.plainMatch)) =
        .code (declare (some item) (framed Ex.frames body)) := by
  refine ⟨rfl, ?_⟩
  obtain ⟨out, h1, _⟩ := Ex.of_check (o := autoEnum Ex.env 40 5 Ex.iterator (.expr Ex.plainMatch))
    (p := fun _ => true) (by decide +kernel)
  obtain ⟨o, d, g1, g2, _, _, g5⟩ := C72 Ex.env 40 5 _ _ _ ((parseArgs_iff Ex.iterator [.ofIdents ["Iterator"]] none).mp rfl)
    Ex.frames (by decide +kernel) Ex.plainMatch rfl rfl (by decide) (by decide +kernel)
  rw [h1] at g1
  cases o with
  | code body =>
    cases d with
    | none => exact absurd rfl (g5 (by simp) (by decide +kernel) ⟨body, rfl⟩)
    | some item => exact ⟨item, body, by rw [h1, g1]; rfl, g2⟩
  | errors es => cases g1
  | panicked ps => cases g1

/-- `|x| match x { 0 => 1, _ => 2 }`. -/
def Ex.closureTwo : Node := .mk (.eClosure "x") [] [
  .mk .eMatch [] [Ex.var "x", Ex.arm "0" (Ex.lit "1"), Ex.arm "_" (Ex.lit "2")]]

/-- The exception for closures is needed: the attribute on `|x| match x { 0 => 1, _ => 2 }` wraps the
values of the closure, and the attribute on the closure in parentheses does not. -/
example : (∃ out, autoEnum Ex.env 40 5 Ex.iterator (.expr Ex.closureTwo) = .code out) ∧
    autoEnum Ex.env 41 5 Ex.iterator (.expr (framed [(.paren, [])] Ex.closureTwo)) = .errors [.twoOrMore .default false] := by
  obtain ⟨out, h1, _⟩ := Ex.of_check (o := autoEnum Ex.env 40 5 Ex.iterator (.expr Ex.closureTwo))
    (p := fun _ => true) (by decide +kernel)
  exact ⟨⟨out, h1⟩, by decide +kernel⟩

end AutoEnums
