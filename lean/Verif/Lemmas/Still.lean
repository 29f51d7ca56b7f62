import Verif.RunCore

/-! # Expansions without an inner attribute do not record one -/

namespace AutoEnums

open Judg

/-- Whether an inner attribute was found is unchanged. -/
def Still (a b : Cx) : Prop := b.hasChild = a.hasChild

namespace Still

theorem refl (a : Cx) : Still a a := rfl

theorem trans {a b c : Cx} (h : Still a b) (h' : Still b c) : Still a c := Eq.trans h' h

theorem error (a : Cx) (e : Err) : Still a (a.error e) := rfl

theorem panic (a : Cx) (p : Panic) : Still a (a.panic p) := rfl

theorem assert (a : Cx) (b : Bool) (p : Panic) : Still a (a.assert b p) := by
  unfold Cx.assert; split <;> rfl

theorem next (a : Cx) (as : List Attr) (e : Node) : Still a (a.nextExprAttrs as e).1 := rfl

end Still

theorem replaceBoxed_still (cx : Cx) (ks : List Node) : Still cx (cx.replaceBoxed ks).1 := by
  unfold Cx.replaceBoxed
  split
  · exact .next _ [] unitE
  · split
    · exact .refl _
    · exact .next _ [] unitE

theorem wrapArm_still (cx : Cx) (n : Node) : Still cx (wrapArm cx n).1 := by
  unfold wrapArm
  split
  · exact .refl _
  · split
    · exact .next _ [] unitE
    · exact .next _ [] unitE
    · exact .refl _

theorem wrapBlock_still (cx : Cx) (ss : List Node) : Still cx (wrapBlock cx ss).1 := by
  unfold wrapBlock
  split
  · exact .refl _
  · exact .next _ [] unitE

theorem mapA_still {f : Cx → Node → Cx × Node} (hf : ∀ cx n, Still cx (f cx n).1) :
    ∀ (l : List Node) (cx : Cx), Still cx (mapA f cx l).1 := by
  intro l
  induction l with
  | nil => intro cx; exact .refl _
  | cons a l ih => intro cx; simp only [mapA]; exact (hf cx a).trans (ih _)

theorem visitIf_still : ∀ (n : Node) (cx : Cx), Still cx (visitIf cx n).1 := by
  intro n
  induction n using Node.strongInd with
  | h n ih =>
    intro cx
    unfold visitIf
    split
    · exact (wrapBlock_still _ _).trans (.error _ _)
    · rename_i as c asb ss e
      dsimp only
      split
      · exact (wrapBlock_still _ _).trans (wrapBlock_still _ _)
      · exact (wrapBlock_still _ _).trans (ih e (Node.sizeOf_kid (by simp)) _)
      · exact (wrapBlock_still _ _).trans (.panic _ _)
    · exact .refl _

theorem loopVisit_still (label : Option String) : ∀ (n : Node) (nested : Bool) (cx : Cx),
    Still cx (loopVisit label nested cx n).1 := by
  intro n
  induction n using Node.ind with
  | h k as ks ih =>
    intro nested cx
    have hl : ∀ (nested : Bool) (l : List Node) (cx : Cx), (∀ c ∈ l, c ∈ ks) →
        Still cx (loopVisitL label nested cx l).1 := by
      intro nested l
      induction l with
      | nil => intro cx _; exact .refl _
      | cons a l ihl =>
        intro cx hm
        simp only [loopVisitL]
        exact (ih a (hm a (by simp)) nested cx).trans
          (ihl _ fun c hc => hm c (by simp [hc]))
    unfold loopVisit
    split
    · exact .refl _
    · split
      · exact .refl _
      · exact .refl _
      · split
        · exact .refl _
        · exact hl _ _ _ fun _ h => h
      · split
        · exact .refl _
        · exact hl _ _ _ fun _ h => h
      · split
        · exact .refl _
        · exact hl _ _ _ fun _ h => h
      · split
        · split
          · exact replaceBoxed_still _ _
          · split
            · exact .refl _
            · rename_i e rest _
              exact (Still.next cx [] e).trans (ih e (by simp) nested _)
        · exact hl _ _ _ fun _ h => h
      · exact hl _ _ _ fun _ h => h

theorem loopVisitL_still (label : Option String) (nested : Bool) :
    ∀ (l : List Node) (cx : Cx), Still cx (loopVisitL label nested cx l).1 := by
  intro l
  induction l with
  | nil => intro cx; unfold loopVisitL; exact .refl _
  | cons a l ih =>
    intro cx
    unfold loopVisitL
    exact (loopVisit_still label a nested cx).trans (ih _)

theorem childLast_still_of (ks : List Node)
    (ih : ∀ m, sizeOf m < sizeOf ks → ∀ cx, Still cx (childExpr cx m).1) (cx : Cx) :
    Still cx (childLast cx ks).1 := by
  induction ks with
  | nil => unfold childLast; exact .refl _
  | cons a l ihl =>
    unfold childLast
    split
    · contradiction
    · rename_i as' e heq
      obtain ⟨rfl, rfl⟩ := List.cons.inj heq
      exact ih e (by simp; omega) cx
    · exact .refl _
    · rename_i s t ss heq
      obtain ⟨rfl, rfl⟩ := List.cons.inj heq
      exact ihl fun m hm => ih m (by simp at hm ⊢; omega)

theorem childExpr_still : ∀ (n : Node) (cx : Cx), Still cx (childExpr cx n).1 := by
  intro n
  induction n using Node.strongInd with
  | h n ih =>
    intro cx
    cases n with
    | mk k as ks =>
      unfold childExpr
      split
      · exact .refl _
      · split
        · exact childLast_still_of _ (fun m hm => ih m (by simp; omega)) cx
        · exact childLast_still_of _ (fun m hm => ih m (by simp; omega)) cx
        · exact mapA_still wrapArm_still _ _
        · exact visitIf_still _ _
        · exact loopVisitL_still _ _ _ _
        · exact ih _ (Node.sizeOf_kid (by simp)) _
        · exact ih _ (Node.sizeOf_kid (by simp)) _
        · exact .refl _

theorem childLast_still (ks : List Node) (cx : Cx) : Still cx (childLast cx ks).1 :=
  childLast_still_of ks (fun m _ => childExpr_still m) cx

theorem visitMode_still (sc : Scope) (cx : Cx) (n : Node) : Still cx (visitMode sc cx n).1 := by
  unfold visitMode
  split
  · unfold visitReturn
    split
    · split
      · exact replaceBoxed_still _ _
      · exact .refl _
    · exact .refl _
  · unfold visitTry
    split
    · split
      · split
        · exact .refl _
        · exact .next _ [] unitE
      · exact .refl _
    · exact .refl _
  · exact .refl _

theorem visitNested_still (sc : Scope) (cx : Cx) (n : Node) (a : Attr) :
    Still cx (visitNested sc cx n a).1 := by
  unfold visitNested
  dsimp only
  split
  · exact (Still.assert _ _ _).trans (childExpr_still _ _)
  · exact (Still.assert _ _ _).trans (.error _ _)

theorem nestedStep_still (sc : Scope) (cx : Cx) (n : Node) : Still cx (nestedStep sc cx n).1 := by
  unfold nestedStep
  split
  · exact .refl _
  · split
    · exact visitNested_still _ _ _ _
    · exact .refl _

theorem pre_still {vk : VK} {sc : Scope} {cx : Cx} {n : Node} (h : n.anyAttr NAME = false) :
    Still cx (pre vk sc cx n).1 := by
  have hs : AutoEnums.seen cx n = cx := by unfold AutoEnums.seen; rw [h]; rfl
  unfold pre
  rw [hs]
  split
  · exact (visitMode_still _ _ _).trans (nestedStep_still _ _ _)
  · exact .refl _

theorem preSub_still (vk : VK) (sc : Scope) (cx : Cx) (n : Node) :
    Still cx (preSub vk sc cx n).1 := by
  unfold preSub
  split
  · split
    · exact .refl _
    · split
      · exact visitNested_still _ _ _ _
      · exact visitNested_still _ _ _ _
      · exact visitNested_still _ _ _ _
      · exact .refl _
      · exact .refl _
  · exact .refl _

theorem findRemoveAttrs_still (sc : Scope) (cx : Cx) (n : Node) :
    Still cx (findRemoveAttrs sc cx n).1 := by
  unfold findRemoveAttrs
  split
  · exact .refl _
  · dsimp only
    have h1 : Still cx (match n.findRemoveAttr NEVER with
        | some (a, n) => (if a.form == Meta.path then cx else cx.error .neverNotPath, n)
        | none => (cx, n)).1 := by
      split
      · dsimp only
        split
        · exact .refl _
        · exact .error _ _
      · exact .refl _
    split
    · exact h1.trans (.error _ _)
    · exact h1

theorem visitMarker_still (sc : Scope) (cx : Cx) (n : Node) : Still cx (visitMarker sc cx n).1 := by
  unfold visitMarker
  dsimp only
  refine (Still.assert cx (!sc.foreign || cx.marker != DEFAULT_MARKER) .markerForeign).trans ?_
  generalize cx.assert (!sc.foreign || cx.marker != DEFAULT_MARKER) .markerForeign = cx1
  split
  · split
    · split
      · split
        · exact .refl _
        · exact .next _ [] unitE
      · exact .error _ _
    · exact .refl _
  · exact .refl _

theorem post_still (vk : VK) (sc : Scope) (cx : Cx) (n : Node) : Still cx (post vk sc cx n).1 := by
  unfold post
  split
  · split
    · exact (visitMarker_still _ _ _).trans (findRemoveAttrs_still _ _ _)
    · exact .refl _
  · exact .refl _

theorem postSub_still (vk : VK) (sc : Scope) (cx : Cx) (n : Node) :
    Still cx (postSub vk sc cx n).1 := by
  unfold postSub
  split
  · exact findRemoveAttrs_still _ _ _
  · exact .refl _

end AutoEnums
