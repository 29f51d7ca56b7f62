import Verif.RunCore
import Verif.Spec.Edit
import Verif.Spec.Flow
import Verif.Lemmas.Visible

/-! # Lemmas on `return`s and `?`s -/

namespace AutoEnums

open Spec Judg

namespace Spec.Aligned

variable {α β γ : Type} {R S : α → β → Prop}

theorem append {a b : List α} {a' b' : List β} (h : Aligned R a a') (h' : Aligned R b b') :
    Aligned R (a ++ b) (a' ++ b') := by
  induction h with
  | nil => exact h'
  | cons h _ ih => exact .cons h ih

theorem imp (hi : ∀ a b, R a b → S a b) {l : List α} {l' : List β} (h : Aligned R l l') :
    Aligned S l l' := by
  induction h with
  | nil => exact .nil
  | cons h _ ih => exact .cons (hi _ _ h) ih

theorem imp_mem {l : List α} {l' : List β} (hi : ∀ a ∈ l, ∀ b, R a b → S a b) (h : Aligned R l l') :
    Aligned S l l' := by
  induction h with
  | nil => exact .nil
  | cons h _ ih =>
    exact .cons (hi _ (by simp) _ h) (ih fun a ha => hi a (by simp [ha]))

theorem refl {R : α → α → Prop} (h : ∀ a, R a a) : ∀ l, Aligned R l l
  | [] => .nil
  | a :: l => .cons (h a) (refl h l)

theorem refl_mem {R : α → α → Prop} : ∀ {l : List α}, (∀ a ∈ l, R a a) → Aligned R l l
  | [], _ => .nil
  | a :: l, h => .cons (h a (by simp)) (refl_mem fun b hb => h b (by simp [hb]))

theorem comp {T : β → γ → Prop} {U : α → γ → Prop} (hc : ∀ a b c, R a b → T b c → U a c) {l : List α}
    {l' : List β} {l'' : List γ} (h : Aligned R l l') (h' : Aligned T l' l'') : Aligned U l l'' := by
  induction h generalizing l'' with
  | nil => cases h'; exact .nil
  | cons h _ ih => cases h' with | cons h2 h3 => exact .cons (hc _ _ _ h h2) (ih h3)

theorem length {l : List α} {l' : List β} (h : Aligned R l l') : l.length = l'.length := by
  induction h with
  | nil => rfl
  | cons _ _ ih => simp [ih]

theorem append_inv {a b : List α} {l : List β} (h : Aligned R (a ++ b) l) :
    ∃ l1 l2, l = l1 ++ l2 ∧ Aligned R a l1 ∧ Aligned R b l2 := by
  induction a generalizing l with
  | nil => exact ⟨[], l, rfl, .nil, h⟩
  | cons x a ih =>
    cases h with
    | cons h1 h2 =>
      obtain ⟨l1, l2, rfl, h3, h4⟩ := ih h2
      exact ⟨_ :: l1, l2, rfl, .cons h1 h3, h4⟩

end Spec.Aligned

/-- How the kind of a node may change. -/
def KindTo (k k' : Kind) : Prop :=
  k' = k ∨ ((∃ p t, k = .eMacro p t) ∧ k' = .eCall) ∨ (k = .eTry ∧ k' = .eMatch)

theorem KindTo.trans {a b c : Kind} (h : KindTo a b) (h' : KindTo b c) : KindTo a c := by
  rcases h with rfl | ⟨h, rfl⟩ | ⟨h, rfl⟩
  · exact h'
  · rcases h' with rfl | ⟨⟨p, t, h'⟩, _⟩ | ⟨h', _⟩
    · exact .inr (.inl ⟨h, rfl⟩)
    · cases h'
    · cases h'
  · rcases h' with rfl | ⟨⟨p, t, h'⟩, _⟩ | ⟨h', _⟩
    · exact .inr (.inr ⟨h, rfl⟩)
    · cases h'
    · cases h'

/-- How the top of a node may change. -/
def Top1 (n n' : Node) : Prop :=
  hasName n = true ∨ (hasName n' = false ∧ KindTo n.kind n'.kind)

theorem Top1.trans {a b c : Node} (h : Top1 a b) (h' : Top1 b c) : Top1 a c := by
  rcases h with h | ⟨h1, h2⟩
  · exact .inl h
  · rcases h' with h' | ⟨h3, h4⟩
    · rw [h1] at h'; cases h'
    · exact .inr ⟨h3, h2.trans h4⟩

/-- How the called function may change. -/
def Heads : List Node → List Node → Prop
  | c :: _, c' :: _ => Top1 c c'
  | [], [] => True
  | _, _ => False

theorem Heads.trans {a b c : List Node} (h : Heads a b) (h' : Heads b c) : Heads a c := by
  cases a <;> cases b <;> cases c <;> simp_all [Heads]
  exact Top1.trans h h'

/-- How a node may change as a value. -/
def Top (n n' : Node) : Prop :=
  hasName n = true ∨
    (hasName n' = false ∧ KindTo n.kind n'.kind ∧ (n.kind = .eCall → Heads n.kids n'.kids))

theorem Top.top1 {n n' : Node} (h : Top n n') : Top1 n n' := h.imp id fun h => ⟨h.1, h.2.1⟩

theorem Top.trans {a b c : Node} (h : Top a b) (h' : Top b c) : Top a c := by
  rcases h with h | ⟨h1, h2, h3⟩
  · exact .inl h
  · rcases h' with h' | ⟨h4, h5, h6⟩
    · rw [h1] at h'; cases h'
    · refine .inr ⟨h4, h2.trans h5, fun hc => ?_⟩
      have : b.kind = .eCall := by
        rcases h2 with h | ⟨⟨p, t, h⟩, _⟩ | ⟨h, _⟩
        · rw [h, hc]
        · rw [hc] at h; cases h
        · rw [hc] at h; cases h
      exact (h3 hc).trans (h6 this)

theorem heads_refl (l : List Node) : Heads l l := by
  cases l with
  | nil => trivial
  | cons a l =>
    cases hn : hasName a
    · exact Or.inr ⟨hn, .inl rfl⟩
    · exact Or.inl hn

theorem Top.refl (n : Node) : Top n n := by
  cases hn : hasName n
  · exact .inr ⟨hn, .inl rfl, fun _ => heads_refl _⟩
  · exact .inl hn

/-- Unchanged as far as `return`s and `?`s are concerned. -/
structure Y (n n' : Node) : Prop where
  kind : n'.kind = n.kind
  never : isNever n'.rawAttrs = isNever n.rawAttrs
  values : n.kind = .eReturn ∨ n.kind = .eTry → ∀ x, valueOf x n'.kids = valueOf x n.kids
  kids : ∀ cl w, exitsL cl w n'.kids = exitsL cl w n.kids
  len : ∀ b, n.kind = .sExpr b → n'.kids.length = n.kids.length

/-- The same, also as a value. -/
structure Z (n n' : Node) : Prop extends Y n n' where
  name : hasName n' = hasName n
  callee : n.kind = .eCall → calleeOf n'.kids = calleeOf n.kids
  heads : n.kind = .eCall → Heads n.kids n'.kids
  attrs : ∀ a ∈ allAttrs n', a ∈ allAttrs n

theorem Y.refl (n : Node) : Y n n := ⟨rfl, rfl, fun _ _ => rfl, fun _ _ => rfl, fun _ _ => rfl⟩

theorem Y.trans {a b c : Node} (h : Y a b) (h' : Y b c) : Y a c :=
  ⟨h'.kind.trans h.kind, h'.never.trans h.never,
    fun hk x => (h'.values (by rw [h.kind]; exact hk) x).trans (h.values hk x),
    fun cl w => (h'.kids cl w).trans (h.kids cl w),
    fun b hb => (h'.len b (h.kind.trans hb)).trans (h.len b hb)⟩

theorem skips_congr {cl : Bool} {k : Kind} {ks ks' : List Node}
    (h : ∀ b, k = .sExpr b → ks'.length = ks.length) : skips cl k ks' = skips cl k ks := by
  cases k <;> first | rfl | simp [skips, h _ rfl]

theorem Z.refl (n : Node) : Z n n := ⟨.refl n, rfl, fun _ => rfl, fun _ => heads_refl _, fun _ h => h⟩

theorem Z.trans {a b c : Node} (h : Z a b) (h' : Z b c) : Z a c :=
  ⟨h.toY.trans h'.toY, h'.name.trans h.name,
    fun hk => (h'.callee (by rw [h.kind]; exact hk)).trans (h.callee hk),
    fun hk => (h.heads hk).trans (h'.heads (by rw [h.kind]; exact hk)),
    fun a ha => h.attrs a (h'.attrs a ha)⟩

theorem Y.exits {n n' : Node} (h : Y n n') (cl : Bool) (w : Where) :
    exits cl w n' = exits cl w n := by
  obtain ⟨h1, h2, h3, h4, h5⟩ := h
  cases n with | mk k as ks =>
  cases n' with | mk k' as' ks' =>
  simp only [Node.kind, Node.rawAttrs, Node.kids] at h1 h2 h3 h4 h5
  subst h1
  unfold Spec.exits
  rw [h4, h2, skips_congr h5]
  by_cases hr : k' = .eReturn
  · rw [h3 (.inl hr), h3 (.inl hr)]
  · by_cases ht : k' = .eTry
    · rw [h3 (.inr ht), h3 (.inr ht)]
    · rw [if_neg hr, if_neg hr, if_neg ht, if_neg ht]

theorem Z.value {n n' : Node} (h : Z n n') : valOf n' = valOf n := by
  obtain ⟨⟨h1, _, _, _, _⟩, h2, h3, _, _⟩ := h
  cases n with | mk k as ks =>
  cases n' with | mk k' as' ks' =>
  simp only [Node.kind, Node.kids, hasName] at h1 h2 h3
  subst h1
  cases k' <;> first | (simp [valOf, h2]; done) | simp [valOf, h2, h3 rfl]

theorem Z.top {n n' : Node} (h : Z n n') : Top n n' := by
  cases hn : hasName n
  · exact .inr ⟨h.name.trans hn, .inl h.kind, h.heads⟩
  · exact .inl hn

/-- All attributes of a sequence of trees. -/
def attrsL (ns : List Node) : List Attr := (labelsL ns).flatMap (·.2)

theorem allAttrs_mk (k : Kind) (as : List Attr) (ks : List Node) :
    allAttrs (.mk k as ks) = as ++ attrsL ks := by simp [allAttrs, attrsL, labels]

theorem attrsL_cons (n : Node) (ns : List Node) : attrsL (n :: ns) = allAttrs n ++ attrsL ns := by
  simp [allAttrs, attrsL, labelsL]

@[simp] theorem attrsL_nil : attrsL [] = [] := rfl

theorem attrsL_aligned {ks ks' : List Node} (h : Aligned Z ks ks') :
    ∀ a ∈ attrsL ks', a ∈ attrsL ks := by
  induction h with
  | nil => exact fun _ h => h
  | cons h _ ih =>
    intro a ha
    rw [attrsL_cons, List.mem_append] at ha ⊢
    exact ha.imp (h.attrs a) (ih a)

theorem attrs_call (p : Path) (e : Node) : allAttrs (exprCall [] p e) = allAttrs e := by
  simp [exprCall, pathE, allAttrs_mk, attrsL_cons]

theorem exitsL_append (cl : Bool) (w : Where) : ∀ a b : List Node,
    exitsL cl w (a ++ b) = exitsL cl w a ++ exitsL cl w b
  | [], b => by simp [exitsL]
  | x :: a, b => by simp [exitsL, exitsL_append cl w a b]

theorem exitsL_congr {ks ks' : List Node} (h : Aligned Z ks ks') (cl : Bool) (w : Where) :
    exitsL cl w ks' = exitsL cl w ks := by
  induction h with
  | nil => rfl
  | cons h _ ih => simp only [exitsL, h.exits, ih]

theorem calleeOf_congr {c c' : Node} (hk : c'.kind = c.kind) (hn : hasName c' = hasName c)
    (l l' : List Node) : calleeOf (c' :: l') = calleeOf (c :: l) := by
  cases c with | mk k as ks =>
  cases c' with | mk k' as' ks' =>
  simp only [Node.kind] at hk
  simp only [hasName] at hn
  subst hk
  unfold calleeOf
  cases k' with
  | ePath q p => cases q <;> simp [hn, hasName]
  | _ => simp [hn, hasName]

theorem calleeOf_aligned {ks ks' : List Node} (h : Aligned Z ks ks') :
    calleeOf ks' = calleeOf ks := by
  cases h with
  | nil => rfl
  | cons h _ => exact calleeOf_congr h.kind h.name _ _

theorem valueOf_aligned {ks ks' : List Node} (h : Aligned Z ks ks') (x : ExitKind) :
    valueOf x ks' = valueOf x ks := by
  cases x with
  | ret =>
    cases h with
    | nil => rfl
    | cons h _ => simp [valueOf, h.value]
  | try_ =>
    cases h with
    | nil => rfl
    | cons h h' =>
      cases h' with
      | nil => simp [valueOf, h.value]
      | cons => rfl

theorem heads_Z {ks ks' : List Node} (h : Aligned Z ks ks') : Heads ks ks' := by
  cases h with
  | nil => trivial
  | cons h _ => exact h.top.top1

theorem Z.node {k : Kind} {as : List Attr} {ks ks' : List Node} (h : Aligned Z ks ks') :
    Z (.mk k as ks) (.mk k as ks') := by
  refine ⟨⟨rfl, rfl, fun _ x => valueOf_aligned h x, fun cl w => exitsL_congr h cl w,
    fun _ _ => h.length.symm⟩, rfl,
    fun _ => calleeOf_aligned h, fun _ => heads_Z h, fun a ha => ?_⟩
  rw [allAttrs_mk, List.mem_append] at ha ⊢
  exact ha.imp id (attrsL_aligned h a)

theorem Z.of {k : Kind} {as : List Attr} {ks ks' : List Node} (h1 : k ≠ .eReturn) (h2 : k ≠ .eTry)
    (h3 : k ≠ .eCall) (h4 : ∀ a ∈ attrsL ks', a ∈ attrsL ks)
    (h : ∀ cl w, exitsL cl w ks' = exitsL cl w ks)
    (h5 : ∀ b, k = .sExpr b → ks'.length = ks.length := by simp) :
    Z (.mk k as ks) (.mk k as ks') := by
  refine ⟨⟨rfl, rfl, fun hk => ?_, h, h5⟩, rfl, fun hk => absurd hk h3, fun hk => absurd hk h3,
    fun a ha => ?_⟩
  · rcases hk with hk | hk
    · exact absurd hk h1
    · exact absurd hk h2
  · rw [allAttrs_mk, List.mem_append] at ha ⊢
    exact ha.imp id (h4 a)

theorem exits_call (cl : Bool) (w : Where) (as : List Attr) (p : Path) (e : Node) :
    exits cl w (exprCall as p e) = exits cl w e := by
  simp [exprCall, pathE, exits, exitsL, skips, Where.enter]

theorem exits_block (cl : Bool) (w : Where) (ss : List Node) :
    exits cl w (exprBlock ss) = exitsL cl w ss := by
  simp [exprBlock, exits, skips, Where.enter]

theorem exits_sExpr (cl : Bool) (w : Where) (b : Bool) (as : List Attr) (e : Node) :
    exits cl w (.mk (.sExpr b) as [e]) = exits cl w e := by
  simp [exits, exitsL, skips, Where.enter]

theorem exits_unit (cl : Bool) (w : Where) : exits cl w unitE = [] := by
  simp [unitE, exits, exitsL, skips]

theorem aligned_Z_refl (l : List Node) : Aligned Z l l := .refl Z.refl l

theorem wrapArm_Z (cx : Cx) (n : Node) : Z n (wrapArm cx n).2 := by
  unfold wrapArm
  split
  · exact .refl _
  · split
    · refine .of (by simp) (by simp) (by simp) (by simp [attrsL_cons, attrs_call, Cx.nextExpr, Cx.nextExprAttrs]) fun cl w => ?_
      simp [exitsL, Cx.nextExpr, Cx.nextExprAttrs, exits_call]
    · refine .of (by simp) (by simp) (by simp) (by simp [attrsL_cons, attrs_call, Cx.nextExpr, Cx.nextExprAttrs]) fun cl w => ?_
      simp [exitsL, Cx.nextExpr, Cx.nextExprAttrs, exits_call]
    · exact .refl _

theorem mapA_Z {f : Cx → Node → Cx × Node} (hf : ∀ cx n, Z n (f cx n).2) :
    ∀ (l : List Node) (cx : Cx), Aligned Z l (mapA f cx l).2
  | [], _ => .nil
  | a :: l, cx => .cons (hf cx a) (mapA_Z hf l _)

theorem wrapBlock_exits (cx : Cx) (ss : List Node) (cl : Bool) (w : Where) :
    exitsL cl w (wrapBlock cx ss).2 = exitsL cl w ss := by
  unfold wrapBlock
  split
  · rfl
  · simp [exitsL, Cx.nextExpr, Cx.nextExprAttrs, exits_call, tailS, exits_sExpr, exits_block]

theorem wrapBlock_attrs (cx : Cx) (ss : List Node) : ∀ a ∈ attrsL (wrapBlock cx ss).2, a ∈ attrsL ss := by
  unfold wrapBlock
  split
  · exact fun _ h => h
  · simp [attrsL_cons, tailS, allAttrs_mk, Cx.nextExpr, Cx.nextExprAttrs, attrs_call, exprBlock]

theorem visitIf_Z : ∀ (n : Node) (cx : Cx), Z n (visitIf cx n).2 := by
  intro n
  induction n using Node.strongInd with
  | h n ih =>
    intro cx
    unfold visitIf
    split
    · refine .node (.cons (.refl _) (.cons (.of (by simp) (by simp) (by simp) (wrapBlock_attrs _ _) ?_) .nil))
      exact fun cl w => wrapBlock_exits _ _ _ _
    · rename_i as c asb ss e
      have hb : Z (.mk .block asb ss) (.mk .block asb (wrapBlock cx ss).2) :=
        .of (by simp) (by simp) (by simp) (wrapBlock_attrs _ _) fun cl w => wrapBlock_exits _ _ _ _
      dsimp only
      split
      · rename_i l hl
        refine .node (.cons (.refl _) (.cons hb (.cons ?_ .nil)))
        cases e with | mk k as' ks' =>
        cases hl
        exact .of (by simp) (by simp) (by simp) (wrapBlock_attrs _ _) fun cl w => wrapBlock_exits _ _ _ _
      · exact .node (.cons (.refl _) (.cons hb (.cons (ih e (Node.sizeOf_kid (by simp)) _) .nil)))
      · exact .node (.cons (.refl _) (.cons hb (.cons (.refl _) .nil)))
    · exact .refl _

theorem loopVisit_Z (label : Option String) : ∀ (n : Node) (nested : Bool) (cx : Cx),
    Z n (loopVisit label nested cx n).2 := by
  intro n
  induction n using Node.ind with
  | h k as ks ih =>
    intro nested cx
    have hl : ∀ (nested : Bool) (l : List Node) (cx : Cx), (∀ c ∈ l, c ∈ ks) →
        Aligned Z l (loopVisitL label nested cx l).2 := by
      intro nested l
      induction l with
      | nil => intro cx _; exact .nil
      | cons a l ihl =>
        intro cx hm
        exact .cons (ih a (hm a (by simp)) nested cx) (ihl _ fun c hc => hm c (by simp [hc]))
    unfold loopVisit
    split
    · exact .refl _
    · split
      · exact .refl _
      · exact .refl _
      · split
        · exact .refl _
        · exact .node (hl _ _ _ fun _ h => h)
      · split
        · exact .refl _
        · exact .node (hl _ _ _ fun _ h => h)
      · split
        · exact .refl _
        · exact .node (hl _ _ _ fun _ h => h)
      · split
        · split
          · refine .of (by simp) (by simp) (by simp) (by simp [attrsL_cons, attrs_call, Cx.nextExpr, Cx.nextExprAttrs, Cx.replaceBoxed, unitE, allAttrs_mk]) fun cl w => ?_
            simp [exitsL, Cx.replaceBoxed, Cx.nextExpr, Cx.nextExprAttrs, exits_call, exits_unit]
          · split
            · exact .refl _
            · rename_i e rest _
              refine .of (by simp) (by simp) (by simp) (by
                simp only [attrsL_cons, attrs_call, List.mem_append]
                exact fun a ha => ha.imp ((ih e (by simp) nested _).attrs a) id) fun cl w => ?_
              simp [exitsL, exits_call, (ih e (by simp) nested _).exits]
        · exact .node (hl _ _ _ fun _ h => h)
      · exact .node (hl _ _ _ fun _ h => h)

theorem loopVisitL_Z (label : Option String) (nested : Bool) :
    ∀ (l : List Node) (cx : Cx), Aligned Z l (loopVisitL label nested cx l).2
  | [], _ => by unfold loopVisitL; exact .nil
  | a :: l, cx => by
    unfold loopVisitL
    exact .cons (loopVisit_Z label a nested cx) (loopVisitL_Z label nested l _)

theorem childLast_Z_of (ks : List Node)
    (ih : ∀ m, sizeOf m < sizeOf ks → ∀ cx, Z m (childExpr cx m).2) (cx : Cx) :
    Aligned Z ks (childLast cx ks).2 := by
  induction ks with
  | nil => unfold childLast; exact .nil
  | cons a l ihl =>
    unfold childLast
    split
    · contradiction
    · rename_i as' e heq
      obtain ⟨rfl, rfl⟩ := List.cons.inj heq
      exact .cons (.node (.cons (ih e (by simp; omega) cx) .nil)) .nil
    · rename_i heq
      obtain ⟨rfl, rfl⟩ := List.cons.inj heq
      exact .cons (.refl _) .nil
    · rename_i s t ss heq
      obtain ⟨rfl, rfl⟩ := List.cons.inj heq
      exact .cons (.refl _) (ihl fun m hm => ih m (by simp at hm ⊢; omega))

theorem childExpr_Z : ∀ (n : Node) (cx : Cx), Z n (childExpr cx n).2 := by
  intro n
  induction n using Node.strongInd with
  | h n ih =>
    intro cx
    cases n with
    | mk k as ks =>
      unfold childExpr
      split
      · exact .refl _
      · split
        · exact .node (childLast_Z_of _ (fun m hm => ih m (by simp; omega)) cx)
        · exact .node (childLast_Z_of _ (fun m hm => ih m (by simp; omega)) cx)
        · exact .node (.cons (.refl _) (mapA_Z wrapArm_Z _ _))
        · exact visitIf_Z _ _
        · exact .node (loopVisitL_Z _ _ _ _)
        · exact .node (.cons (ih _ (Node.sizeOf_kid (by simp)) _) (aligned_Z_refl _))
        · exact .node (.cons (ih _ (Node.sizeOf_kid (by simp)) _) .nil)
        · exact .refl _

theorem childLast_Z (ks : List Node) (cx : Cx) : Aligned Z ks (childLast cx ks).2 :=
  childLast_Z_of ks (fun m _ => childExpr_Z m) cx

/-! ## Left alone -/

theorem Spec.Val.Becomes.trans {a b c : Val} (h : a.Becomes b) (h' : b.Becomes c) : a.Becomes c := by
  rcases h with rfl | h
  · exact h'
  · exact .inr h

theorem valueKept_refl (v : Option Val) : valueKept v v := by
  cases v
  · trivial
  · exact Or.inl rfl

theorem valueKept_trans {a b c : Option Val} (h : valueKept a b) (h' : valueKept b c) :
    valueKept a c := by
  cases a <;> cases b <;> cases c <;> first | trivial | exact h.elim | exact h'.elim | exact h.trans h'

theorem Spec.Exit.Kept.refl (a : Exit) : a.Kept a := ⟨rfl, valueKept_refl _⟩

theorem Spec.Exit.Kept.trans {a b c : Exit} (h : a.Kept b) (h' : b.Kept c) : a.Kept c :=
  ⟨h'.1.trans h.1, valueKept_trans h.2 h'.2⟩

theorem calleeOf_heads {l l' : List Node} (h : Heads l l') :
    (calleeOf l).Becomes (calleeOf l') := by
  cases l with
  | nil =>
    cases l' with
    | nil => exact .inl rfl
    | cons => exact h.elim
  | cons c l =>
    cases l' with
    | nil => exact h.elim
    | cons c' l' =>
      rcases (h : Top1 c c') with h | ⟨h1, h2⟩
      · refine .inr (.inr ?_)
        cases c with | mk k as ks =>
        simp only [hasName] at h
        unfold calleeOf
        split
        · rename_i heq; cases heq; simp [h]
        · rename_i heq; cases heq; simp [hasName, h]
        · rename_i heq; cases heq
      · cases hn : hasName c
        · refine .inl ?_
          rcases h2 with h2 | ⟨⟨p, t, h2⟩, h3⟩ | ⟨h2, h3⟩
          · exact calleeOf_congr h2 (h1.trans hn.symm) _ _
          · cases c; cases c'; cases h2; cases h3; simp [calleeOf, hn, h1]
          · cases c; cases c'; cases h2; cases h3; simp [calleeOf, hn, h1]
        · refine .inr (.inr ?_)
          cases c with | mk k as ks =>
          simp only [hasName] at hn
          unfold calleeOf
          split
          · rename_i heq; cases heq; simp [hn]
          · rename_i heq; cases heq; simp [hasName, hn]
          · rename_i heq; cases heq

theorem Top.becomes {n n' : Node} (h : Top n n') : (valOf n).Becomes (valOf n') := by
  cases n with | mk k as ks =>
  cases n' with | mk k' as' ks' =>
  simp only [Top, hasName, Node.kind, Node.kids] at h
  rcases h with h | ⟨h1, h2, h3⟩
  · cases k <;> simp [valOf, h, Val.Becomes]
  · rcases h2 with rfl | ⟨⟨p, t, rfl⟩, rfl⟩ | ⟨rfl, rfl⟩
    · cases hn : as.any (named "auto_enum")
      · cases k' with
        | eCall =>
          simp only [valOf, hn, h1]
          exact calleeOf_heads (h3 rfl)
        | _ => simp [valOf, hn, h1, Val.Becomes]
      · cases k' <;> simp [valOf, hn, Val.Becomes]
    · simp [valOf, Val.Becomes]
    · cases hn : as.any (named "auto_enum") <;> simp [valOf, hn, h1, Val.Becomes]

/-- The exits of a node, from those of its kids and its own. -/
theorem exits_node {R : Exit → Exit → Prop} {cl : Bool} {w w' : Where} {k : Kind}
    {as as' : List Attr} {ks ks' : List Node}
    (hl : ∀ b, k = .sExpr b → ks'.length = ks.length)
    (hk : skips cl k ks = false → Aligned R (exitsL cl (w.enter k) ks) (exitsL cl (w'.enter k) ks'))
    (hr : k = .eReturn → R ⟨.ret, w.enter k, isNever as, valueOf .ret ks⟩
      ⟨.ret, w'.enter k, isNever as', valueOf .ret ks'⟩)
    (ht : k = .eTry → R ⟨.try_, w.enter k, isNever as, valueOf .try_ ks⟩
      ⟨.try_, w'.enter k, isNever as', valueOf .try_ ks'⟩) :
    Aligned R (exits cl w (.mk k as ks)) (exits cl w' (.mk k as' ks')) := by
  unfold exits
  rw [skips_congr hl]
  cases hs : skips cl k ks
  · simp only [Bool.false_eq_true, if_false]
    refine ((?_ : Aligned R _ _).append (hk hs)).append ?_
    · split
      · exact .cons (hr (by assumption)) .nil
      · exact .nil
    · split
      · exact .cons (ht (by assumption)) .nil
      · exact .nil
  · simp only [if_true]; exact .nil

theorem aligned_exitsL {R : Exit → Exit → Prop} {cl : Bool} {w w' : Where} {ks ks' : List Node}
    (h : Aligned (fun n n' => Aligned R (exits cl w n) (exits cl w' n')) ks ks') :
    Aligned R (exitsL cl w ks) (exitsL cl w' ks') := by
  induction h with
  | nil => exact .nil
  | cons h _ ih => exact h.append ih

/-- Where a tree is does not matter for what is kept. -/
theorem exits_loc (cl : Bool) : ∀ (n : Node) (w w' : Where),
    Aligned Exit.Kept (exits cl w n) (exits cl w' n) := by
  intro n
  induction n using Node.ind with
  | h k as ks ih =>
    intro w w'
    refine exits_node (fun _ _ => rfl) (fun _ => aligned_exitsL ?_) (fun _ => ⟨rfl, valueKept_refl _⟩)
      (fun _ => ⟨rfl, valueKept_refl _⟩)
    exact .refl_mem fun c hc => ih c hc _ _

/-- Left alone by an expansion. -/
structure Q (cl : Bool) (n n' : Node) : Prop where
  exits : ∀ w, Aligned Exit.Kept (exits cl w n) (exits cl w n')
  top : Top n n'

theorem Q.refl (cl : Bool) (n : Node) : Q cl n n := ⟨fun _ => .refl .refl _, .refl _⟩

theorem Q.trans {cl : Bool} {a b c : Node} (h : Q cl a b) (h' : Q cl b c) : Q cl a c :=
  ⟨fun w => (h.exits w).comp (fun _ _ _ => .trans) (h'.exits w), h.top.trans h'.top⟩

theorem valueOf_kept {ks ks' : List Node} (h : Aligned Top ks ks') (x : ExitKind) :
    valueKept (valueOf x ks) (valueOf x ks') := by
  cases x with
  | ret =>
    cases h with
    | nil => trivial
    | cons h _ => exact h.becomes
  | try_ =>
    cases h with
    | nil => trivial
    | cons h h' =>
      cases h' with
      | nil => exact h.becomes
      | cons => trivial

theorem heads_of {ks ks' : List Node} (h : Aligned Top ks ks') : Heads ks ks' := by
  cases h with
  | nil => trivial
  | cons h _ => exact h.top1

theorem top_node {k : Kind} {as : List Attr} {ks ks' : List Node} (h : Aligned Top ks ks') :
    Top (.mk k as ks) (.mk k as ks') := by
  cases hn : as.any (named "auto_enum")
  · exact .inr ⟨hn, .inl rfl, fun _ => heads_of h⟩
  · exact .inl hn

theorem Q.node {cl : Bool} {k : Kind} {as : List Attr} {ks ks' : List Node}
    (h : Aligned (Q cl) ks ks') : Q cl (.mk k as ks) (.mk k as ks') := by
  have ht := h.imp fun _ _ h => h.top
  exact ⟨fun w => exits_node (fun _ _ => h.length.symm) (fun _ => aligned_exitsL (h.imp fun _ _ h => h.exits _))
    (fun _ => ⟨rfl, valueOf_kept ht .ret⟩) (fun _ => ⟨rfl, valueOf_kept ht .try_⟩), top_node ht⟩

theorem Node.sub_mk (k : Kind) (as : List Attr) (ks : List Node) :
    (Node.mk k as ks).sub = if k.isOpaque then [] else ks := rfl

theorem Node.rebuild_mk (k : Kind) (as : List Attr) (ks ks' : List Node) :
    (Node.mk k as ks).rebuild ks' = if k.isOpaque then .mk k as ks else .mk k as ks' := rfl

theorem Q.rebuild {cl : Bool} {n : Node} {ks : List Node} (h : Aligned (Q cl) n.sub ks) :
    Q cl n (n.rebuild ks) := by
  cases n with | mk k as ks0 =>
  rw [Node.rebuild_mk]
  rw [Node.sub_mk] at h
  cases ho : k.isOpaque
  · simp only [ho] at h; exact .node h
  · exact .refl _ _

theorem any_drop {α : Type} (p : α → Bool) {l1 l2 : List α} {a : α} (h : p a = false) :
    (l1 ++ l2).any p = (l1 ++ a :: l2).any p := by simp [h]

/-- Removing an attribute other than `never`. -/
theorem drop_Y {n n1 : Node} {s : String} {a : Attr} (hs : s ≠ NEVER)
    (h : n.findRemoveAttr s = some (a, n1)) : Y n n1 := by
  obtain ⟨_, h1, _, l1, l2, h2, rfl⟩ := Node.findRemoveAttr_some h
  refine ⟨rfl, ?_, fun _ _ => rfl, fun _ _ => rfl, fun _ _ => rfl⟩
  simp only [Node.rawAttrs] at h2 ⊢
  rw [h2]
  refine any_drop _ ?_
  rw [named_iff]
  cases hn : a.is "never"
  · rfl
  · exfalso
    rw [← named_iff] at h1 hn
    simp only [named, beq_iff_eq] at h1 hn
    rw [h1] at hn
    cases hn
    exact hs rfl

theorem drop_attrs {n n1 : Node} {s : String} {a : Attr} (h : n.findRemoveAttr s = some (a, n1)) :
    ∀ b ∈ allAttrs n1, b ∈ allAttrs n := by
  obtain ⟨_, h1, _, l1, l2, h2, rfl⟩ := Node.findRemoveAttr_some h
  cases n with | mk k as ks =>
  simp only [Node.rawAttrs] at h2
  subst h2
  intro b hb
  simp only [Node.kind, Node.kids, allAttrs_mk, List.mem_append, List.mem_cons] at hb ⊢
  rcases hb with (h | h) | h
  · exact .inl (.inl h)
  · exact .inl (.inr (.inr h))
  · exact .inr h

theorem drop_top {n n1 : Node} {s : String} {a : Attr} (h : n.findRemoveAttr s = some (a, n1)) :
    Top n n1 := by
  obtain ⟨_, h1, _, l1, l2, h2, rfl⟩ := Node.findRemoveAttr_some h
  cases n with | mk k as ks =>
  simp only [Node.rawAttrs] at h2
  subst h2
  cases hn : hasName (.mk k (l1 ++ a :: l2) ks)
  · refine .inr ⟨?_, .inl rfl, fun _ => heads_refl _⟩
    simp only [hasName, List.any_append, List.any_cons, Bool.or_eq_false_iff] at hn ⊢
    exact ⟨hn.1, hn.2.2⟩
  · exact .inl hn

theorem drop_nested_Z {n n1 : Node} {a : Attr} (h : n.findRemoveAttr NESTED = some (a, n1)) :
    Z n n1 := by
  have hy := drop_Y (by decide) h
  have hat := drop_attrs h
  obtain ⟨_, h1, _, l1, l2, h2, rfl⟩ := Node.findRemoveAttr_some h
  cases n with | mk k as ks =>
  simp only [Node.rawAttrs] at h2
  subst h2
  refine ⟨hy, any_drop _ ?_, fun _ => rfl, fun _ => heads_refl _, hat⟩
  rw [← named_iff] at h1
  simp only [named, beq_iff_eq] at h1
  simp only [named, beq_eq_false_iff_ne]
  rw [h1]
  decide

theorem drop_Q {cl : Bool} {n n1 : Node} {s : String} {a : Attr}
    (h : n.findRemoveAttr s = some (a, n1)) : Q cl n n1 := by
  refine ⟨fun w => ?_, drop_top h⟩
  obtain ⟨_, h1, _, l1, l2, h2, rfl⟩ := Node.findRemoveAttr_some h
  cases n with | mk k as ks =>
  exact exits_node (fun _ _ => rfl) (fun _ => .refl .refl _) (fun _ => ⟨rfl, valueKept_refl _⟩)
    (fun _ => ⟨rfl, valueKept_refl _⟩)

theorem visitNested_Z (sc : Scope) (cx : Cx) (n : Node) (a : Attr) : Z n (visitNested sc cx n a).2 := by
  unfold visitNested
  dsimp only
  split
  · exact childExpr_Z _ _
  · exact .refl _

theorem nestedStep_Z (sc : Scope) (cx : Cx) (n : Node) : Z n (nestedStep sc cx n).2 := by
  unfold nestedStep
  split
  · exact .refl _
  · split
    · exact (drop_nested_Z (by assumption)).trans (visitNested_Z _ _ _ _)
    · exact .refl _

theorem preSub_Z (vk : VK) (sc : Scope) (cx : Cx) (n : Node) : Z n (preSub vk sc cx n).2 := by
  unfold preSub
  split
  · split
    · exact .refl _
    · split
      · rename_i h
        exact (drop_nested_Z h).trans (.node (.cons (visitNested_Z _ _ _ _) .nil))
      · rename_i h
        exact (drop_nested_Z h).trans (.node (.cons (.refl _) (.cons (visitNested_Z _ _ _ _) .nil)))
      · rename_i h
        exact (drop_nested_Z h).trans (.node (.cons (visitNested_Z _ _ _ _) (aligned_Z_refl _)))
      · exact drop_nested_Z (by assumption)
      · exact .refl _
  · exact .refl _

theorem Z.Q {n n' : Node} (h : Z n n') (cl : Bool) : Q cl n n' :=
  ⟨fun w => by rw [h.exits]; exact .refl .refl _, h.top⟩

theorem findRemoveAttrs_Q (cl : Bool) (sc : Scope) (cx : Cx) (n : Node) :
    Q cl n (findRemoveAttrs sc cx n).2 := by
  unfold findRemoveAttrs
  split
  · exact .refl _ _
  · dsimp only
    have h1 : Q cl n (match n.findRemoveAttr NEVER with
        | some (a, n) => (if a.form == Meta.path then cx else cx.error .neverNotPath, n)
        | none => (cx, n)).2 := by
      split
      · exact drop_Q (by assumption)
      · exact .refl _ _
    split
    · exact h1.trans (drop_Q (by assumption))
    · exact h1

theorem visitMarker_Q (cl : Bool) (sc : Scope) (cx : Cx) (n : Node)
    (hc : Clean (visitMarker sc cx n).1) : Q cl n (visitMarker sc cx n).2 := by
  unfold visitMarker at hc ⊢
  dsimp only at hc ⊢
  generalize cx.assert (!sc.foreign || cx.marker != DEFAULT_MARKER) .markerForeign = cx1 at hc ⊢
  split
  · rename_i p t as ks
    dsimp only at hc
    split
    · rename_i hm
      rw [if_pos hm] at hc
      split
      · rename_i e
        dsimp only at hc
        split
        · rename_i he
          rw [if_pos he] at hc
          exact absurd he (by simp [hc.hasError])
        · refine ⟨fun w => ?_, ?_⟩
          · simp only [Cx.nextExprAttrs, exits_call]
            simp only [exits, skips, exitsL, List.append_nil]
            simpa using exits_loc cl e _ _
          · cases hn : hasName (.mk (.eMacro p t) as [e])
            · exact .inr ⟨hn, .inr (.inl ⟨⟨_, _, rfl⟩, rfl⟩), fun h => by cases h⟩
            · exact .inl hn
      · rename_i hne
        split at hc
        · exact (hne _ rfl).elim
        · exact (Keeps.not_error hc).elim
    · exact .refl _ _
  · exact .refl _ _

theorem post_Q (cl : Bool) (vk : VK) (sc : Scope) (cx : Cx) (n : Node)
    (hc : Clean (post vk sc cx n).1) : Q cl n (post vk sc cx n).2 := by
  unfold post at hc ⊢
  split
  · dsimp only at hc
    split
    · rename_i h
      rw [if_pos h] at hc
      exact (visitMarker_Q cl sc cx n (findRemoveAttrs_keeps _ _ _ hc)).trans (findRemoveAttrs_Q _ _ _ _)
    · exact .refl _ _
  · exact .refl _ _

theorem postSub_Q (cl : Bool) (vk : VK) (sc : Scope) (cx : Cx) (n : Node) :
    Q cl n (postSub vk sc cx n).2 := by
  unfold postSub
  split
  · exact findRemoveAttrs_Q _ _ _ _
  · exact .refl _ _

end AutoEnums
