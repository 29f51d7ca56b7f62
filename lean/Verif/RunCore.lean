import Verif.RunVisit

/-! # What a run leaves unchanged in the context -/

namespace AutoEnums

open Judg

/-- What an expansion keeps. -/
structure Kept (a b : Cx) : Prop where
  ident : b.ident = a.ident
  marker : b.marker = a.marker
  markers : b.markers = a.markers
  root : b.root = a.root
  args : b.args = a.args
  variants : a.variants <+: b.variants

/-- What the steps of one context keep. -/
structure Same (a b : Cx) : Prop extends Kept a b where
  traits : b.traits = a.traits
  mode : b.mode = a.mode
  lastMode : b.lastMode = a.lastMode

theorem Kept.refl (a : Cx) : Kept a a := ⟨rfl, rfl, rfl, rfl, rfl, List.prefix_refl _⟩

theorem Kept.trans {a b c : Cx} (h : Kept a b) (h' : Kept b c) : Kept a c :=
  ⟨h'.ident.trans h.ident, h'.marker.trans h.marker, h'.markers.trans h.markers,
    h'.root.trans h.root, h'.args.trans h.args, h.variants.trans h'.variants⟩

namespace Same

theorem refl (a : Cx) : Same a a := ⟨.refl a, rfl, rfl, rfl⟩

theorem trans {a b c : Cx} (h : Same a b) (h' : Same b c) : Same a c :=
  ⟨h.toKept.trans h'.toKept, h'.traits.trans h.traits, h'.mode.trans h.mode,
    h'.lastMode.trans h.lastMode⟩

theorem visitLast {a b : Cx} (h : Same a b) : b.visitLast = a.visitLast := by
  simp [Cx.visitLast, h.mode, h.lastMode]

theorem isMarkerExact {a b : Cx} (h : Same a b) : b.isMarkerExact = a.isMarkerExact := by
  funext p; simp [Cx.isMarkerExact, h.marker]

theorem isMarker {a b : Cx} (h : Same a b) : b.isMarker = a.isMarker := by
  funext p; simp [Cx.isMarker, h.isMarkerExact, h.root, h.markers]

theorem isMarkerExpr {a b : Cx} (h : Same a b) : b.isMarkerExpr = a.isMarkerExpr := by
  funext n; unfold Cx.isMarkerExpr; rw [h.isMarker]

theorem error (a : Cx) (e : Err) : Same a (a.error e) :=
  ⟨⟨rfl, rfl, rfl, rfl, rfl, List.prefix_refl _⟩, rfl, rfl, rfl⟩

theorem panic (a : Cx) (p : Panic) : Same a (a.panic p) :=
  ⟨⟨rfl, rfl, rfl, rfl, rfl, List.prefix_refl _⟩, rfl, rfl, rfl⟩

theorem assert (a : Cx) (b : Bool) (p : Panic) : Same a (a.assert b p) := by
  unfold Cx.assert; split
  · exact .refl _
  · exact .panic _ _

theorem next (a : Cx) (as : List Attr) (e : Node) : Same a (a.nextExprAttrs as e).1 :=
  ⟨⟨rfl, rfl, rfl, rfl, rfl, List.prefix_append _ _⟩, rfl, rfl, rfl⟩

theorem seen (cx : Cx) (n : Node) : Same cx (seen cx n) := by
  unfold AutoEnums.seen; split
  · exact ⟨⟨rfl, rfl, rfl, rfl, rfl, List.prefix_refl _⟩, rfl, rfl, rfl⟩
  · exact .refl _

end Same

theorem replaceBoxed_same (cx : Cx) (ks : List Node) : Same cx (cx.replaceBoxed ks).1 := by
  unfold Cx.replaceBoxed
  split
  · exact .next _ [] unitE
  · split
    · exact .refl _
    · exact .next _ [] unitE

theorem wrapArm_same (cx : Cx) (n : Node) : Same cx (wrapArm cx n).1 := by
  unfold wrapArm
  split
  · exact .refl _
  · split
    · exact .next _ [] unitE
    · exact .next _ [] unitE
    · exact .refl _

theorem wrapBlock_same (cx : Cx) (ss : List Node) : Same cx (wrapBlock cx ss).1 := by
  unfold wrapBlock
  split
  · exact .refl _
  · exact .next _ [] unitE

theorem mapA_same {f : Cx → Node → Cx × Node} (hf : ∀ cx n, Same cx (f cx n).1) :
    ∀ (l : List Node) (cx : Cx), Same cx (mapA f cx l).1 := by
  intro l
  induction l with
  | nil => intro cx; exact .refl _
  | cons a l ih => intro cx; simp only [mapA]; exact (hf cx a).trans (ih _)

theorem visitIf_same : ∀ (n : Node) (cx : Cx), Same cx (visitIf cx n).1 := by
  intro n
  induction n using Node.strongInd with
  | h n ih =>
    intro cx
    unfold visitIf
    split
    · exact (wrapBlock_same _ _).trans (.error _ _)
    · rename_i as c asb ss e
      dsimp only
      split
      · exact (wrapBlock_same _ _).trans (wrapBlock_same _ _)
      · exact (wrapBlock_same _ _).trans (ih e (Node.sizeOf_kid (by simp)) _)
      · exact (wrapBlock_same _ _).trans (.panic _ _)
    · exact .refl _

theorem loopVisit_kept (label : Option String) : ∀ (n : Node) (nested : Bool) (cx : Cx),
    Same cx (loopVisit label nested cx n).1 := by
  intro n
  induction n using Node.ind with
  | h k as ks ih =>
    intro nested cx
    have hl : ∀ (nested : Bool) (l : List Node) (cx : Cx), (∀ c ∈ l, c ∈ ks) →
        Same cx (loopVisitL label nested cx l).1 := by
      intro nested l
      induction l with
      | nil => intro cx _; exact .refl _
      | cons a l ihl =>
        intro cx hm
        simp only [loopVisitL]
        exact (ih a (hm a (by simp)) nested cx).trans
          (ihl _ fun c hc => hm c (by simp [hc]))
    unfold loopVisit
    split
    · exact .refl _
    · split
      · exact .refl _
      · exact .refl _
      · split
        · exact .refl _
        · exact hl _ _ _ fun _ h => h
      · split
        · exact .refl _
        · exact hl _ _ _ fun _ h => h
      · split
        · exact .refl _
        · exact hl _ _ _ fun _ h => h
      · split
        · split
          · exact replaceBoxed_same _ _
          · split
            · exact .refl _
            · rename_i e rest _
              exact (Same.next cx [] e).trans (ih e (by simp) nested _)
        · exact hl _ _ _ fun _ h => h
      · exact hl _ _ _ fun _ h => h

theorem loopVisitL_kept (label : Option String) (nested : Bool) :
    ∀ (l : List Node) (cx : Cx), Same cx (loopVisitL label nested cx l).1 := by
  intro l
  induction l with
  | nil => intro cx; unfold loopVisitL; exact .refl _
  | cons a l ih =>
    intro cx
    unfold loopVisitL
    exact (loopVisit_kept label a nested cx).trans (ih _)

theorem childLast_same_of (ks : List Node)
    (ih : ∀ m, sizeOf m < sizeOf ks → ∀ cx, Same cx (childExpr cx m).1) (cx : Cx) :
    Same cx (childLast cx ks).1 := by
  induction ks with
  | nil => unfold childLast; exact .refl _
  | cons a l ihl =>
    unfold childLast
    split
    · contradiction
    · rename_i as' e heq
      obtain ⟨rfl, rfl⟩ := List.cons.inj heq
      exact ih e (by simp; omega) cx
    · exact .refl _
    · rename_i s t ss heq
      obtain ⟨rfl, rfl⟩ := List.cons.inj heq
      exact ihl fun m hm => ih m (by simp at hm ⊢; omega)

theorem childExpr_same : ∀ (n : Node) (cx : Cx), Same cx (childExpr cx n).1 := by
  intro n
  induction n using Node.strongInd with
  | h n ih =>
    intro cx
    cases n with
    | mk k as ks =>
      unfold childExpr
      split
      · exact .refl _
      · split
        · exact childLast_same_of _ (fun m hm => ih m (by simp; omega)) cx
        · exact childLast_same_of _ (fun m hm => ih m (by simp; omega)) cx
        · exact mapA_same wrapArm_same _ _
        · exact visitIf_same _ _
        · exact loopVisitL_kept _ _ _ _
        · exact ih _ (Node.sizeOf_kid (by simp)) _
        · exact ih _ (Node.sizeOf_kid (by simp)) _
        · exact .refl _

theorem childLast_same (ks : List Node) (cx : Cx) : Same cx (childLast cx ks).1 :=
  childLast_same_of ks (fun m _ => childExpr_same m) cx

theorem visitMode_kept (sc : Scope) (cx : Cx) (n : Node) : Same cx (visitMode sc cx n).1 := by
  unfold visitMode
  split
  · unfold visitReturn
    split
    · split
      · exact replaceBoxed_same _ _
      · exact .refl _
    · exact .refl _
  · unfold visitTry
    split
    · split
      · split
        · exact .refl _
        · exact .next _ [] unitE
      · exact .refl _
    · exact .refl _
  · exact .refl _

theorem visitNested_same (sc : Scope) (cx : Cx) (n : Node) (a : Attr) :
    Same cx (visitNested sc cx n a).1 := by
  unfold visitNested
  dsimp only
  split
  · exact (Same.assert _ _ _).trans (childExpr_same _ _)
  · exact (Same.assert _ _ _).trans (.error _ _)

theorem nestedStep_same (sc : Scope) (cx : Cx) (n : Node) : Same cx (nestedStep sc cx n).1 := by
  unfold nestedStep
  split
  · exact .refl _
  · split
    · exact visitNested_same _ _ _ _
    · exact .refl _

theorem pre_same (vk : VK) (sc : Scope) (cx : Cx) (n : Node) : Same cx (pre vk sc cx n).1 := by
  unfold pre
  split
  · exact ((Same.seen cx n).trans (visitMode_kept _ _ _)).trans (nestedStep_same _ _ _)
  · exact .seen _ _

theorem preSub_same (vk : VK) (sc : Scope) (cx : Cx) (n : Node) :
    Same cx (preSub vk sc cx n).1 := by
  unfold preSub
  split
  · split
    · exact .refl _
    · split
      · exact visitNested_same _ _ _ _
      · exact visitNested_same _ _ _ _
      · exact visitNested_same _ _ _ _
      · exact .refl _
      · exact .refl _
  · exact .refl _

theorem findRemoveAttrs_same (sc : Scope) (cx : Cx) (n : Node) :
    Same cx (findRemoveAttrs sc cx n).1 := by
  unfold findRemoveAttrs
  split
  · exact .refl _
  · dsimp only
    have h1 : Same cx (match n.findRemoveAttr NEVER with
        | some (a, n) => (if a.form == Meta.path then cx else cx.error .neverNotPath, n)
        | none => (cx, n)).1 := by
      split
      · dsimp only
        split
        · exact .refl _
        · exact .error _ _
      · exact .refl _
    split
    · exact h1.trans (.error _ _)
    · exact h1

theorem visitMarker_same (sc : Scope) (cx : Cx) (n : Node) : Same cx (visitMarker sc cx n).1 := by
  unfold visitMarker
  dsimp only
  refine (Same.assert cx (!sc.foreign || cx.marker != DEFAULT_MARKER) .markerForeign).trans ?_
  generalize cx.assert (!sc.foreign || cx.marker != DEFAULT_MARKER) .markerForeign = cx1
  split
  · split
    · split
      · split
        · exact .refl _
        · exact .next _ [] unitE
      · exact .error _ _
    · exact .refl _
  · exact .refl _

theorem post_same (vk : VK) (sc : Scope) (cx : Cx) (n : Node) : Same cx (post vk sc cx n).1 := by
  unfold post
  split
  · split
    · exact (visitMarker_same _ _ _).trans (findRemoveAttrs_same _ _ _)
    · exact .refl _
  · exact .refl _

theorem postSub_same (vk : VK) (sc : Scope) (cx : Cx) (n : Node) :
    Same cx (postSub vk sc cx n).1 := by
  unfold postSub
  split
  · exact findRemoveAttrs_same _ _ _
  · exact .refl _

/-- The contexts of an inner attribute, before and after. -/
theorem child_same {cx cx1 cx2 ch ch' : Cx} {h : Nat} {toks : List Tok}
    (hm : cx.makeChild h toks = (cx1, .ok ch)) (hc1 : Clean cx1) (h2 : Same cx1 cx2)
    (hch : Kept ch ch') (hj : Clean (cx2.joinChild ch')) : Same cx (cx2.joinChild ch') := by
  unfold Cx.makeChild at hm
  simp only [Prod.mk.injEq] at hm
  obtain ⟨e1, e2⟩ := hm
  obtain ⟨m, _, _, _, _, _, _, _⟩ := new_args e2
  have hmk : ch.markers.dropLast = cx.markers := by
    unfold Cx.new at e2
    split at e2
    · cases e2
    · dsimp only at e2
      split at e2
      · split at e2
        · cases e2
        · cases e2
          simp [Cx.assert]
          split <;> rfl
      · cases e2
        simp [Cx.assert]
        split <;> rfl
  have ha : cx.assert cx.hasChild .makeChildNoChild = cx := by
    unfold Cx.assert
    split
    · rfl
    · rename_i hn
      have := hc1.2
      rw [← e1, Cx.assert, if_neg hn] at this
      simp [Cx.panic] at this
  rw [ha] at e1
  subst e1
  have hasj : cx2.assert cx2.markers.isEmpty .joinMarkers = cx2 := by
    unfold Cx.assert
    split
    · rfl
    · rename_i hn
      have := hj.2
      unfold Cx.joinChild at this
      rw [Cx.assert, if_neg hn] at this
      simp [Cx.panic] at this
  have hj' : cx2.joinChild ch' = { cx2 with
      markers := ch'.markers.dropLast
      errs := cx2.errs ++ ch'.errs
      panics := cx2.panics ++ ch'.panics
      log := cx2.log ++ ch'.log } := by
    unfold Cx.joinChild; rw [hasj]
  rw [hj']
  exact ⟨⟨h2.ident, h2.marker, by show ch'.markers.dropLast = _; rw [hch.markers, hmk], h2.root,
    h2.args, h2.variants⟩, h2.traits, h2.mode, h2.lastMode⟩

/-- What each judgement keeps. -/
def Judg.Keeps : Judg → Prop
  | one _ _ cx _ cx' _ => Same cx cx'
  | many _ _ cx _ cx' _ => Same cx cx'
  | expr _ _ _ cx _ cx' _ => Same cx cx'
  | part _ _ cx _ cx' _ => Same cx cx'
  | onExpr _ cx _ cx' _ => Kept cx cx'
  | target cx _ cx' _ => Same cx cx'
  | build cx _ cx' _ => Kept cx cx'
  | onStmt cx _ cx' _ => Kept cx cx'

theorem semi_kept (cx : Cx) (semi : Bool) :
    Kept cx (if semi then { cx with lastMode := .never } else cx) := by
  cases semi <;> exact ⟨rfl, rfl, rfl, rfl, rfl, List.prefix_refl _⟩

theorem localAnalysis_kept {env : Env} {cx cx1 : Cx} {p p1 : LetPat}
    (h : localAnalysis env cx p = (cx1, p1)) : Kept cx cx1 := by
  have : Kept cx (localAnalysis env cx p).1 := by
    unfold localAnalysis
    split
    · split
      · exact ⟨rfl, rfl, rfl, rfl, rfl, List.prefix_refl _⟩
      · exact .refl _
    · exact .refl _
  rw [h] at this; exact this

theorem fnAnalysis_kept {env : Env} {cx cx1 : Cx} {ret : Option Ty} {b : Node}
    (h : fnAnalysis env cx ret b = cx1) : Kept cx cx1 := by
  subst h
  unfold fnAnalysis
  split
  · exact .refl _
  · dsimp only
    split <;> exact ⟨rfl, rfl, rfl, rfl, rfl, List.prefix_refl _⟩

theorem Run.keeps {env : Env} {j : Judg} (h : Run env j) : j.Keeps := by
  induction h with
  | nil => exact .refl _
  | cons _ _ ih1 ih2 => exact Same.trans ih1 ih2
  | plain _ _ _ _ _ _ _ ih => exact ((pre_same _ _ _ _).trans ih).trans (post_same _ _ _ _)
  | child _ _ _ _ _ hm hc1 _ _ _ _ _ hj _ _ ih1 ih2 =>
    exact ((pre_same _ _ _ _).trans (child_same hm hc1 ih1 ih2 hj)).trans (post_same _ _ _ _)
  | part _ _ _ _ _ ih => exact ((preSub_same _ _ _ _).trans ih).trans (postSub_same _ _ _ _)
  | oneExpr _ _ ih => exact ih
  | oneStmt _ ih => exact ih
  | oneArm _ _ ih => exact ih
  | oneLocal _ _ _ ih => exact ih
  | oneLocalChild _ _ _ _ _ hm hc1 _ _ _ _ _ hj _ ih1 ih2 =>
    exact (Same.seen _ _).trans (child_same hm hc1 ih1 ih2 hj)
  | oneBlock _ _ _ _ ih => exact ih
  | oneInert => exact .seen _ _
  | exprDummy _ _ ih => exact (semi_kept _ _).trans (Same.toKept ih)
  | exprBuild _ _ ih => exact (semi_kept _ _).trans ih
  | target _ _ _ ih => exact (childExpr_same _ _).trans ih
  | targetExit _ _ _ ih => exact (childExpr_same _ _).trans ih
  | buildExpr _ _ _ ih => exact Same.toKept ih
  | @buildClosure cx b _ _ _ _ _ _ _ ih =>
    exact Kept.trans (b := closureCx cx b) ⟨rfl, rfl, rfl, rfl, rfl, List.prefix_refl _⟩
      (Same.toKept ih)
  | stmtExpr _ ih => exact ih
  | stmtLocalDummy h _ _ ih => exact (localAnalysis_kept h).trans (Same.toKept ih)
  | stmtLocal h _ _ ih => exact (localAnalysis_kept h).trans ih
  | stmtFnDummy h _ _ ih => exact (fnAnalysis_kept h).trans (Same.toKept ih)
  | stmtFnExit h _ _ _ _ _ ih =>
    exact (fnAnalysis_kept h).trans ((childLast_same _ _).trans ih).toKept
  | stmtFn h _ _ _ _ _ _ ih =>
    exact (fnAnalysis_kept h).trans ((childLast_same _ _).trans ih).toKept
  | stmtInert => exact .refl _

end AutoEnums
