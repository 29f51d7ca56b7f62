import Verif.Spec.Inner
import Verif.Lemmas.Wrap
import Verif.Lemmas.Visible
import Verif.Lemmas.Args

/-! # Inner attributes and the markers they declare -/

namespace AutoEnums

open Spec Judg

theorem isExprNode_eq' (n : Node) : isExprNode n = n.kind.isExpr := by
  cases n with | mk k as ks => cases k <;> rfl

theorem mayCarry_hasAttrs {k : Kind} (h : mayCarry k = true) : k.hasAttrs = true := by
  cases k <;> first | rfl | (simp [mayCarry, isExpression] at h)

@[simp] theorem innersL_append (a b : List Node) : innersL (a ++ b) = innersL a ++ innersL b := by
  induction a with
  | nil => simp [innersL]
  | cons n ns ih => simp [innersL, ih]

theorem innersL_cons (n : Node) (ns : List Node) : innersL (n :: ns) = inners n ++ innersL ns := by
  rw [innersL]

@[simp] theorem innersL_nil : innersL [] = [] := by rw [innersL]

theorem inners_mk (k : Kind) (as : List Attr) (ks : List Node) : inners (.mk k as ks) =
    match innerAttr k as with
    | some a => [a]
    | none => if hidesCode k || oddStatement k ks then [] else innersL ks := by
  rw [inners]; cases innerAttr k as <;> rfl

@[simp] theorem innerAttr_nil (k : Kind) : innerAttr k [] = none := by
  unfold innerAttr; split <;> rfl

theorem inners_call (p : Path) (e : Node) : inners (exprCall [] p e) = inners e := by
  unfold exprCall pathE
  simp [inners_mk, hidesCode, oddStatement, innersL_cons]

theorem inners_unit : inners unitE = [] := by
  unfold unitE
  simp [inners_mk]

theorem Wr.kind {n n' : Node} (h : Wr n n') : n'.kind = n.kind := by
  induction h <;> simp_all [Node.kind]

/-- The branch analysis neither adds nor removes inner attributes. -/
theorem Wr.inners {n n' : Node} (h : Wr n n') : Spec.inners n' = Spec.inners n := by
  induction h with
  | refl => rfl
  | trans _ _ h1 h2 => rw [h2, h1]
  | @kid n n' k as xs ys hk hw ih =>
    have ho : oddStatement k (xs ++ n' :: ys) = oddStatement k (xs ++ n :: ys) := by
      have : isExprNode n' = isExprNode n := by rw [isExprNode_eq', isExprNode_eq', hw.kind]
      unfold oddStatement
      split
      · simp [this]
      · rfl
    simp only [inners_mk, ho, innersL_append, innersL_cons, ih]
  | @val k as e rest p hk =>
    have ho : ∀ l, oddStatement k l = false := by rcases hk with rfl | ⟨l, rfl⟩ <;> intro _ <;> rfl
    simp only [inners_mk, ho, innersL_cons, inners_call]
  | arm hg =>
    simp only [inners_mk, oddStatement, innersL_append, innersL_cons, inners_call, innersL_nil]
  | @block k as ss p hk =>
    have ho : ∀ l, oddStatement k l = false := by rcases hk with rfl | ⟨l, rfl⟩ <;> intro _ <;> rfl
    simp only [inners_mk, ho, innersL_cons, tailS, exprBlock, innerAttr_nil, innersL_nil, inners_call]
    have : oddStatement (.sExpr false) [exprCall [] p (.mk (.eBlock none) [] ss)] = false := rfl
    rw [this]
    simp [hidesCode, oddStatement]
  | @fill k as p hk =>
    have ho : ∀ l, oddStatement k l = false := by rcases hk with rfl | ⟨l, rfl⟩ <;> intro _ <;> rfl
    simp [inners_mk, ho, innersL_cons, inners_call, inners_unit]

/-- Removing another attribute does not matter. -/
theorem inners_remove {k : Kind} {l1 l2 : List Attr} {a : Attr} {ks : List Node}
    (h : named "auto_enum" a = false) :
    inners (.mk k (l1 ++ l2) ks) = inners (.mk k (l1 ++ a :: l2) ks) := by
  have : innerAttr k (l1 ++ l2) = innerAttr k (l1 ++ a :: l2) := by
    unfold innerAttr
    split
    · simp [List.find?_append, h]
    · rfl
  simp only [inners_mk, this]

theorem named_other {a : Attr} {s t : String} (h : a.is s = true) (hst : s ≠ t) : named t a = false := by
  rw [named_iff]
  cases ht : a.is t with
  | false => rfl
  | true =>
    simp only [Attr.is, Path.isIdent] at h ht
    split at h <;> simp_all

theorem inners_findRemove {n n' : Node} {s : String} {a : Attr} (h : n.findRemoveAttr s = some (a, n'))
    (hs : s ≠ "auto_enum") : inners n' = inners n := by
  obtain ⟨_, h1, _, l1, l2, h2, h3⟩ := Node.findRemoveAttr_some h
  cases n with
  | mk k as ks =>
    simp only [Node.rawAttrs, Node.kids, Node.kind] at h2 h3
    subst h3 h2
    exact inners_remove (named_other h1 hs)

theorem visitMode_inners (sc : Scope) (cx : Cx) (n : Node) : inners (visitMode sc cx n).2 = inners n := by
  unfold visitMode
  split
  · unfold visitReturn
    split
    · split
      · rename_i as ks _
        cases ks with
        | nil =>
          simp only [Cx.replaceBoxed, Cx.nextExpr, Cx.nextExprAttrs]
          exact Wr.inners (.fill (.inl rfl))
        | cons e rest =>
          simp only [Cx.replaceBoxed]
          split
          · rfl
          · exact Wr.inners (.val (.inl rfl))
      · rfl
    · rfl
  · unfold visitTry
    split
    · split
      · split
        · rfl
        · rename_i as e _ _
          have : innerAttr .eMatch as = innerAttr .eTry as := rfl
          simp only [inners_mk, this, innersL_cons, tryArms, Cx.nextExpr, Cx.nextExprAttrs, exprCall,
            pathE, exprBlock, semiS, innerAttr_nil]
          cases innerAttr .eTry as with
          | some a => rfl
          | none => simp [hidesCode, oddStatement, isExprNode]
      · rfl
    · rfl
  · rfl

theorem visitNested_inners (sc : Scope) (cx : Cx) (n : Node) (a : Attr) :
    inners (visitNested sc cx n a).2 = inners n := by
  unfold visitNested
  dsimp only
  split
  · exact (childExpr_Wr _ _).inners
  · rfl

theorem pre_inners (vk : VK) (sc : Scope) (cx : Cx) (n : Node) : inners (pre vk sc cx n).2 = inners n := by
  unfold pre
  split
  · unfold nestedStep
    split
    · exact visitMode_inners _ _ _
    · split
      · rename_i a n' hf
        rw [visitNested_inners, inners_findRemove hf (by decide), visitMode_inners]
      · exact visitMode_inners _ _ _
  · rfl

theorem pre_isExpr (vk : VK) (sc : Scope) (cx : Cx) (n : Node) (h : n.kind.isExpr = true) :
    (pre vk sc cx n).2.kind.isExpr = true := by
  have hm : (visitMode sc (seen cx n) n).2.kind.isExpr = true := by
    unfold visitMode
    split
    · unfold visitReturn
      split
      · split
        · rfl
        · exact h
      · exact h
    · unfold visitTry
      split
      · split
        · split
          · exact h
          · rfl
        · exact h
      · exact h
    · exact h
  unfold pre
  split
  · rw [nestedStep_kind]; exact hm
  · exact h

/-- None of the attributes declares a marker of the context. -/
def NoneKnown (cx : Cx) (l : List Attr) : Prop := ∀ a ∈ l, ∀ name, Declares a name → name ∉ cx.markers

theorem NoneKnown.same {cx cx' : Cx} {l : List Attr} (h : NoneKnown cx' l) (hs : Kept cx cx') :
    NoneKnown cx l := fun a ha name hd => by
  have := h a ha name hd
  rwa [hs.markers] at this

theorem makeChild_known {cx cx1 ch : Cx} {h : Nat} {toks : List Tok} {a : Attr}
    (hm : cx.makeChild h toks = (cx1, .ok ch)) (hf : a.form = .list toks) : NoneKnown cx [a] := by
  unfold Cx.makeChild at hm
  simp only [Prod.mk.injEq] at hm
  obtain ⟨m, h1, _, _, _, _, _, _, _, h2⟩ := new_args hm.2
  intro b hb name hd hn
  simp only [List.mem_singleton] at hb
  subst hb
  obtain ⟨toks', traits, hf', hi⟩ := hd
  rw [hf] at hf'
  cases hf'
  rw [← parseArgs_iff, h1] at hi
  cases hi
  refine h2 name rfl ?_
  rw [(show (cx.assert cx.hasChild .makeChildNoChild).markers = cx.markers by
    unfold Cx.assert; split <;> rfl)]
  exact hn

theorem innerAttr_of_findRemove {k : Kind} {as : List Attr} {ks : List Node} {a : Attr} {n1 : Node}
    (hk : mayCarry k = true) (h : (Node.mk k as ks).findRemoveAttr NAME = some (a, n1)) :
    innerAttr k as = some a := by
  simp only [Node.findRemoveAttr, mayCarry_hasAttrs hk, if_true] at h
  unfold innerAttr
  rw [if_pos hk]
  split at h
  · rename_i b bs hb
    simp only [Option.some.injEq, Prod.mk.injEq] at h
    obtain ⟨rfl, _⟩ := h
    obtain ⟨h1, l1, l2, h2, _, h3⟩ := findRemove_some hb
    subst h2
    rw [List.find?_append]
    have : l1.find? (named "auto_enum") = none := by
      rw [List.find?_eq_none]
      intro x hx
      rw [named_iff, show x.is "auto_enum" = false from h3 x hx]
      simp
    rw [this]
    simp [named_iff, show b.is "auto_enum" = true from h1]
  · cases h

theorem inners_of_findRemove {n n1 : Node} {a : Attr} (hk : mayCarry n.kind = true)
    (h : n.findRemoveAttr NAME = some (a, n1)) : inners n = [a] := by
  cases n with
  | mk k as ks => rw [inners_mk, innerAttr_of_findRemove (k := k) hk h]

theorem inners_of_none {n : Node} (h : n.findRemoveAttr NAME = none) :
    inners n = if oddStatement n.kind n.kids then [] else innersL n.sub := by
  cases n with
  | mk k as ks =>
    have : innerAttr k as = none := by
      unfold innerAttr
      split
      · rename_i hk
        simp only [Node.findRemoveAttr, mayCarry_hasAttrs hk, if_true] at h
        split at h
        · cases h
        · rename_i hb
          rw [findRemove_none, List.any_eq_false] at hb
          rw [List.find?_eq_none]
          intro x hx
          rw [named_iff]
          exact hb x hx
      · rfl
    rw [inners_mk, this]
    simp only [Node.sub, hidesCode_eq, Node.kind, Node.kids]
    cases k.isOpaque <;> by_cases ho : oddStatement k ks = true <;> simp [ho]

theorem isExpr_mayCarry {n n1 : Node} {a : Attr} (hk : n.kind.isExpr = true)
    (h : n.findRemoveAttr NAME = some (a, n1)) : mayCarry n.kind = true := by
  have := (Node.findRemoveAttr_some h).1
  cases n with
  | mk k as ks => cases k <;> first | rfl | (simp [Node.kind, Kind.isExpr, Kind.hasAttrs] at hk this)

theorem preSub_inners (vk : VK) (sc : Scope) (cx : Cx) (n : Node) :
    innersL (preSub vk sc cx n).2.sub = innersL n.sub := by
  have hk : ∀ {n n' : Node} {a : Attr}, n.findRemoveAttr NESTED = some (a, n') → n'.sub = n.sub := by
    intro n n' a h
    obtain ⟨_, h1, _, l1, l2, h2, h3⟩ := Node.findRemoveAttr_some h
    cases n with | mk k as ks => subst h3; rfl
  unfold preSub
  split
  · split
    · rfl
    · split
      · rename_i h; rw [← hk h]; simp [Node.sub, Kind.isOpaque, innersL_cons, visitNested_inners]
      · rename_i h; rw [← hk h]; simp [Node.sub, Kind.isOpaque, innersL_cons, visitNested_inners]
      · rename_i h; rw [← hk h]; simp [Node.sub, Kind.isOpaque, innersL_cons, visitNested_inners]
      · rename_i h; rw [← hk h]
      · rfl
  · rfl

/-- A closure with a body that itself has no inner attribute, or something else. -/
def OpenClosure (n : Node) : Prop := ∀ i as b, n = .mk (.eClosure i) as [b] →
  ∀ a ∈ as, named "auto_enum" a = false

theorem inners_closure {i : String} {as : List Attr} {b : Node}
    (h : ∀ a ∈ as, named "auto_enum" a = false) : inners (.mk (.eClosure i) as [b]) = inners b := by
  have : innerAttr (.eClosure i) as = none := by
    simp only [innerAttr, mayCarry, isExpression, if_true, List.find?_eq_none]
    intro x hx; simp [h x hx]
  rw [inners_mk, this]
  simp [hidesCode, oddStatement, innersL_cons]

/-- What is known about inner attributes after a successful run. -/
def Judg.Markers : Judg → Prop
  | one _ _ cx n _ _ => NoneKnown cx (inners n)
  | many _ _ cx ns _ _ => NoneKnown cx (innersL ns)
  | expr _ _ _ cx n _ _ => n.kind.isExpr = true → NoneKnown cx (inners n)
  | part _ _ cx n _ _ => NoneKnown cx (innersL n.sub)
  | onExpr _ cx n _ _ => n.kind.isExpr = true → OpenClosure n → NoneKnown cx (inners n)
  | target cx n _ _ => NoneKnown cx (inners n)
  | build cx n _ _ => OpenClosure n → NoneKnown cx (inners n)
  | onStmt cx n _ _ => isTarget n = true → n.kind.isExpr = false → OpenClosure (targetOf n) →
      NoneKnown cx (inners (targetOf n))

theorem Run.markers {env : Env} {j : Judg} (h : Run env j) : j.Markers := by
  induction h with
  | nil => intro a ha; simp at ha
  | cons h1 h2 ih1 ih2 =>
    intro a ha
    rw [innersL_cons, List.mem_append] at ha
    rcases ha with ha | ha
    · exact ih1 a ha
    · exact NoneKnown.same ih2 (Run.keeps h1).toKept a ha
  | @plain cx vk sc n cx2 ks semi _ _ _ hn _ _ _ ih =>
    intro hk
    have hk' := pre_isExpr vk (enter vk sc n) cx n hk
    have : oddStatement (pre vk (enter vk sc n) cx n).2.kind (pre vk (enter vk sc n) cx n).2.kids = false := by
      revert hk'
      generalize (pre vk (enter vk sc n) cx n).2.kind = k
      cases k <;> simp [Kind.isExpr, oddStatement]
    have hi := inners_of_none hn
    rw [this, pre_inners] at hi
    simp only [Bool.false_eq_true, if_false] at hi
    rw [hi]
    exact NoneKnown.same ih (pre_same _ _ _ _).toKept
  | @child cx vk sc n attr n1 toks cx1 ch cx2 ks semi ch' n3 _ _ _ hf ha hm _ _ _ _ _ _ _ _ _ _ =>
    intro hk
    have hk' := pre_isExpr vk (enter vk sc n) cx n hk
    have hi := inners_of_findRemove (isExpr_mayCarry hk' hf) hf
    rw [pre_inners] at hi
    rw [hi]
    exact NoneKnown.same (makeChild_known hm ha) (pre_same _ _ _ _).toKept
  | @part vk sc cx n cx2 ks _ _ _ _ _ ih =>
    have := NoneKnown.same ih (preSub_same _ _ _ _).toKept
    rwa [preSub_inners] at this
  | oneExpr hk _ ih => exact ih hk
  | @oneStmt vk sc semi cx e cx' e' as _ ih =>
    show NoneKnown cx (inners _)
    rw [inners_mk]
    simp only [innerAttr, mayCarry, isExpression, Bool.false_eq_true, if_false, hidesCode, Bool.false_or]
    split
    · intro a ha; simp at ha
    · rename_i ho
      simp only [oddStatement, List.length_singleton, BEq.rfl, List.all_cons, List.all_nil, Bool.and_true, Bool.true_and, Bool.not_eq_true', Bool.not_eq_false] at ho
      rw [innersL_cons, innersL_nil, List.append_nil]
      exact ih (by rw [← isExprNode_eq']; exact ho)
  | @oneArm vk sc cx n cx' n' p hk _ ih =>
    cases n with
    | mk k as ks =>
      simp only [Node.kind] at hk; subst hk
      show NoneKnown cx (inners _)
      rw [inners_mk]
      exact ih
  | @oneLocal vk sc cx n cx' n' p hk hn _ ih =>
    cases n with
    | mk k as ks =>
      simp only [Node.kind] at hk; subst hk
      show NoneKnown cx (inners _)
      rw [inners_of_none (Node.findRemoveAttr_none hn)]
      exact ih
  | @oneLocalChild cx attr n1 toks n cx1 ch _ _ _ _ _ _ _ hk hn _ hf ht hm _ _ _ _ _ _ _ _ _ =>
    show NoneKnown cx (inners _)
    rw [inners_of_findRemove (by rw [hk]; rfl) hf]
    have hs := (Same.seen cx n).toKept
    intro a ha name hd
    cases hform : attr.form with
    | list toks' =>
      rw [hform] at ht
      simp only [childToks, Option.some.injEq] at ht
      subst ht
      exact NoneKnown.same (makeChild_known hm hform) hs a ha name hd
    | _ =>
      simp only [List.mem_singleton] at ha
      subst ha
      obtain ⟨t, _, h, _⟩ := hd
      rw [hform] at h; cases h
  | @oneBlock vk sc cx cx' ks n h1 h2 h3 _ ih =>
    show NoneKnown cx (inners _)
    have : n.findRemoveAttr NAME = none := by
      apply Node.findRemoveAttr_none
      cases n with
      | mk k as ks =>
        simp only [Node.kind] at h1 h2 h3
        cases k <;> first
          | (simp [Kind.isExpr] at h1; done) | (simp [Kind.isStmt] at h2; done) | exact absurd rfl (h3 _) | rfl
    rw [inners_of_none this]
    split
    · intro a ha; simp at ha
    · exact ih
  | @oneInert n cx vk sc h1 h2 h3 _ =>
    show NoneKnown cx (inners _)
    have : inners n = [] := by
      cases n with
      | mk k as ks =>
        simp only [Node.kind] at h1 h2
        cases k <;> first
          | (simp [Kind.isStmt] at h1; done) | exact absurd rfl (h2 _) | skip
        all_goals rw [inners_mk]
        · simp only [innerAttr, mayCarry, isExpression, Bool.false_eq_true, if_false, hidesCode, Bool.false_or]
          rw [if_pos]
          unfold oddStatement
          match ks with
          | [] => rfl
          | [e] => exact absurd rfl (fun h => h3 _ _ _ h)
          | _ :: _ :: _ => simp
        · simp [innerAttr, mayCarry, isExpression, hidesCode]
        · simp [innerAttr, mayCarry, isExpression, hidesCode]
    rw [this]; intro a ha; simp at ha
  | @exprDummy semi e _ _ cx _ _ ih =>
    intro hk ho
    exact NoneKnown.same ih (semi_kept cx semi)
  | @exprBuild semi e _ _ cx _ _ ih =>
    intro hk ho
    exact NoneKnown.same (ih ho) (semi_kept cx semi)
  | target _ _ _ ih =>
    have := NoneKnown.same ih (childExpr_same _ _).toKept
    rwa [(childExpr_Wr _ _).inners] at this
  | targetExit _ _ _ ih =>
    have := NoneKnown.same ih (childExpr_same _ _).toKept
    rwa [(childExpr_Wr _ _).inners] at this
  | buildExpr _ _ _ ih => exact fun _ => ih
  | @buildClosure cx b _ _ _ as _ _ _ ih =>
    intro ho
    rw [inners_closure (ho _ _ _ rfl)]
    exact NoneKnown.same (cx' := closureCx cx b) ih ⟨rfl, rfl, rfl, rfl, rfl, List.prefix_refl _⟩
  | stmtExpr _ ih =>
    intro ht _ ho
    exact ih (by rw [← isExprNode_eq']; exact ht) ho
  | @stmtLocalDummy cx p cx1 p1 ks cx' ks' as h _ _ ih =>
    intro ht _ ho
    cases ks with
    | nil => simp [isTarget, isExprNode, Node.kind] at ht
    | cons e els =>
      have := NoneKnown.same ih (localAnalysis_kept h)
      intro a ha
      exact this a (by rw [innersL_cons]; exact List.mem_append_left _ ha)
  | stmtLocal h _ _ ih =>
    intro ht _ ho
    exact NoneKnown.same (ih ho) (localAnalysis_kept h)
  | stmtFnDummy h _ _ ih =>
    intro ht _ ho
    have := NoneKnown.same ih (fnAnalysis_kept h)
    simpa [innersL_cons, inners_mk, targetOf, innerAttr, mayCarry, isExpression, hidesCode, oddStatement] using this
  | @stmtFnExit cx ret asb ss cx1 _ _ _ _ h _ _ _ _ _ ih =>
    intro ht _ ho
    have := (NoneKnown.same ih (childLast_same _ _).toKept).same (fnAnalysis_kept h)
    rw [innersL_cons, (childLast_Wr rfl asb ss cx1).inners] at this
    simpa [innersL_cons, inners_mk, targetOf, innerAttr, mayCarry, isExpression, hidesCode, oddStatement] using this
  | @stmtFn cx ret asb ss cx1 _ _ _ _ h _ _ _ _ _ _ ih =>
    intro ht _ ho
    have := (NoneKnown.same ih (childLast_same _ _).toKept).same (fnAnalysis_kept h)
    rw [innersL_cons, (childLast_Wr rfl asb ss cx1).inners] at this
    simpa [innersL_cons, inners_mk, targetOf, innerAttr, mayCarry, isExpression, hidesCode, oddStatement] using this
  | @stmtInert n cx h1 h2 h3 h4 _ =>
    intro ht he
    exfalso
    rw [← isExprNode_eq'] at he
    unfold isTarget at ht
    split at ht
    · exact h3 _ _ _ rfl
    · exact h2 _ rfl
    · exact h4 _ _ _ _ _ rfl
    · rw [he] at ht; cases ht

end AutoEnums
