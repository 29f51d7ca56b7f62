import Verif.RunCore

/-!
# What the branch analysis does to a tree

`child_expr` puts constructor calls around values, bodies and blocks, anywhere in a tree, and does
nothing else.
-/

namespace AutoEnums

/-- `Wr n n'`: `n'` is `n` with some values of `return`s and `break`s, bodies of arms and blocks wrapped
in calls. -/
inductive Wr : Node → Node → Prop where
  | refl : Wr n n
  | trans : Wr a b → Wr b c → Wr a c
  | kid : k.isOpaque = false → Wr n n' → Wr (.mk k as (xs ++ n :: ys)) (.mk k as (xs ++ n' :: ys))
  | val : (k = .eReturn ∨ ∃ l, k = .eBreak l) →
      Wr (.mk k as (e :: rest)) (.mk k as (exprCall [] p e :: rest))
  | arm : (g = [] ∨ ∃ c, g = [c]) →
      Wr (.mk (.arm pat) as (g ++ [e])) (.mk (.arm pat) as (g ++ [exprCall [] p e]))
  | block : (k = .block ∨ ∃ l, k = .eBlock l) →
      Wr (.mk k as ss) (.mk k as [tailS (exprCall [] p (exprBlock ss))])
  | fill : (k = .eReturn ∨ ∃ l, k = .eBreak l) → Wr (.mk k as []) (.mk k as [exprCall [] p unitE])

namespace Wr

theorem kid0 (hk : k.isOpaque = false) (h : Wr n n') : Wr (.mk k as (n :: ys)) (.mk k as (n' :: ys)) :=
  .kid (xs := []) hk h

theorem kid1 (hk : k.isOpaque = false) (h : Wr n n') :
    Wr (.mk k as (a :: n :: ys)) (.mk k as (a :: n' :: ys)) :=
  .kid (xs := [a]) hk h

theorem kid2 (hk : k.isOpaque = false) (h : Wr n n') :
    Wr (.mk k as (a :: b :: n :: ys)) (.mk k as (a :: b :: n' :: ys)) :=
  .kid (xs := [a, b]) hk h

theorem mapA {f : Cx → Node → Cx × Node} (hf : ∀ cx n, Wr n (f cx n).2) {k : Kind}
    (hk : k.isOpaque = false) (as : List Attr) : ∀ (ks xs : List Node) (cx : Cx),
      Wr (.mk k as (xs ++ ks)) (.mk k as (xs ++ (AutoEnums.mapA f cx ks).2)) := by
  intro ks
  induction ks with
  | nil => intro xs cx; exact .refl
  | cons n ns ih =>
    intro xs cx
    simp only [AutoEnums.mapA]
    have h1 := Wr.kid (as := as) (xs := xs) (ys := ns) hk (hf cx n)
    have h2 := ih (xs ++ [(f cx n).2]) (f cx n).1
    simp only [List.append_assoc, List.singleton_append] at h2
    exact h1.trans h2

end Wr

theorem wrapArm_Wr (cx : Cx) (n : Node) : Wr n (wrapArm cx n).2 := by
  unfold wrapArm
  split
  · exact .refl
  · split
    · exact .arm (g := []) (.inl rfl)
    · exact .arm (g := [_]) (.inr ⟨_, rfl⟩)
    · exact .refl

theorem wrapBlock_Wr {k : Kind} (hk : k = .block ∨ ∃ l, k = .eBlock l) (cx : Cx) (as : List Attr)
    (ss : List Node) : Wr (.mk k as ss) (.mk k as (wrapBlock cx ss).2) := by
  unfold wrapBlock
  split
  · exact .refl
  · exact .block hk

theorem visitIf_Wr : ∀ (n : Node) (cx : Cx), Wr n (visitIf cx n).2 := by
  intro n
  induction n using Node.strongInd with
  | h n ih =>
    intro cx
    unfold visitIf
    split
    · exact Wr.kid1 rfl (wrapBlock_Wr (.inl rfl) cx _ _)
    · rename_i as c asb ss e
      have h1 : Wr (.mk .eIf as [c, .mk .block asb ss, e])
          (.mk .eIf as [c, .mk .block asb (wrapBlock cx ss).2, e]) :=
        Wr.kid1 rfl (wrapBlock_Wr (.inl rfl) cx _ _)
      dsimp only
      split
      · rename_i l hl
        cases e with
        | mk ke ase es =>
          simp only [Node.kind] at hl
          subst hl
          exact h1.trans (Wr.kid2 rfl (wrapBlock_Wr (.inr ⟨_, rfl⟩) _ _ _))
      · exact h1.trans (Wr.kid2 rfl (ih _ (Node.sizeOf_kid (by simp)) _))
      · exact h1
    · exact .refl

theorem loopVisit_Wr (label : Option String) : ∀ (n : Node) (nested : Bool) (cx : Cx),
    Wr n (loopVisit label nested cx n).2 := by
  intro n
  induction n using Node.ind with
  | h k as ks ih =>
    intro nested cx
    have hl : ∀ (nested : Bool) (l xs : List Node) (cx : Cx), k.isOpaque = false → (∀ c ∈ l, c ∈ ks) →
        Wr (.mk k as (xs ++ l)) (.mk k as (xs ++ (loopVisitL label nested cx l).2)) := by
      intro nested l
      induction l with
      | nil => intro xs cx _ _; exact .refl
      | cons a l ihl =>
        intro xs cx hk hm
        simp only [loopVisitL]
        have h1 := Wr.kid (as := as) (xs := xs) (ys := l) hk (ih a (hm a (by simp)) nested cx)
        have h2 := ihl (xs ++ [(loopVisit label nested cx a).2]) (loopVisit label nested cx a).1 hk
          (fun c hc => hm c (by simp [hc]))
        simp only [List.append_assoc, List.singleton_append] at h2
        exact h1.trans h2
    unfold loopVisit
    split
    · exact .refl
    · rename_i hc
      have hk : k.isOpaque = false := by
        simp only [Bool.or_eq_true, not_or, Bool.not_eq_true] at hc; exact hc.1
      split
      · exact .refl
      · exact .refl
      · split
        · exact .refl
        · exact hl true ks [] cx rfl (fun _ h => h)
      · split
        · exact .refl
        · exact hl true ks [] cx rfl (fun _ h => h)
      · split
        · exact .refl
        · exact hl true ks [] cx rfl (fun _ h => h)
      · split
        · split
          · exact .fill (.inr ⟨_, rfl⟩)
          · split
            · exact .refl
            · rename_i l _ e rest _
              exact Wr.trans (Wr.val (.inr ⟨_, rfl⟩)) (Wr.kid0 rfl (Wr.kid1 rfl (ih e (by simp) _ _)))
        · exact hl nested ks [] cx rfl (fun _ h => h)
      · exact hl nested ks [] cx hk (fun _ h => h)

theorem loopVisitL_Wr (label : Option String) {k : Kind} (hk : k.isOpaque = false)
    (as : List Attr) (nested : Bool) (l : List Node) : ∀ (xs : List Node) (cx : Cx),
    Wr (.mk k as (xs ++ l)) (.mk k as (xs ++ (loopVisitL label nested cx l).2)) := by
  induction l with
  | nil => intro xs cx; exact .refl
  | cons a l ihl =>
    intro xs cx
    unfold loopVisitL
    have h1 := Wr.kid (as := as) (xs := xs) (ys := l) hk (loopVisit_Wr label a nested cx)
    have h2 := ihl (xs ++ [(loopVisit label nested cx a).2]) (loopVisit label nested cx a).1
    simp only [List.append_assoc, List.singleton_append] at h2
    exact h1.trans h2

theorem childLast_Wr_of {k : Kind} (hk : k.isOpaque = false) (as : List Attr) (ks : List Node)
    (ih : ∀ m, sizeOf m < sizeOf (Node.mk k as ks) → ∀ cx, Wr m (childExpr cx m).2) (cx : Cx) :
    ∀ (l xs : List Node), (∀ c ∈ l, c ∈ ks) →
      Wr (.mk k as (xs ++ l)) (.mk k as (xs ++ (childLast cx l).2)) := by
  intro l
  induction l with
  | nil => intro xs _; exact .refl
  | cons a l ihl =>
    intro xs hm
    unfold childLast
    split
    · contradiction
    · rename_i as' e heq
      obtain ⟨rfl, rfl⟩ := List.cons.inj heq
      refine Wr.kid hk (Wr.kid0 rfl (ih e ?_ cx))
      have h1 := Node.sizeOf_kid (k := .sExpr false) (as := as') (ks := [e]) (c := e) (by simp)
      have h2 := Node.sizeOf_kid (k := k) (as := as) (hm _ (List.mem_cons_self ..))
      omega
    · rename_i s _ heq
      rw [← heq]; exact .refl
    · rename_i s t ss heq
      obtain ⟨rfl, rfl⟩ := List.cons.inj heq
      have := ihl (xs ++ [a]) (fun c hc => hm c (by simp [hc]))
      simpa using this

theorem childExpr_Wr : ∀ (n : Node) (cx : Cx), Wr n (childExpr cx n).2 := by
  intro n
  induction n using Node.strongInd with
  | h n ih =>
    intro cx
    cases n with
    | mk k as ks =>
      unfold childExpr
      split
      · exact .refl
      · split
        · exact childLast_Wr_of rfl as _ ih cx _ [] (fun _ h => h)
        · exact childLast_Wr_of rfl as _ ih cx _ [] (fun _ h => h)
        · exact Wr.mapA wrapArm_Wr rfl as _ [_] cx
        · exact visitIf_Wr _ _
        · exact loopVisitL_Wr _ rfl as _ _ [] cx
        · exact Wr.kid0 rfl (ih _ (Node.sizeOf_kid (by simp)) _)
        · exact Wr.kid0 rfl (ih _ (Node.sizeOf_kid (by simp)) _)
        · exact .refl

theorem childLast_Wr {k : Kind} (hk : k.isOpaque = false) (as : List Attr) (ks : List Node) (cx : Cx) :
    Wr (.mk k as ks) (.mk k as (childLast cx ks).2) :=
  childLast_Wr_of hk as ks (fun m _ cx => childExpr_Wr m cx) cx ks [] fun _ h => h

end AutoEnums
