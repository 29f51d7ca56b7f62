import Verif.Spec.Macros
import Verif.Lemmas.Nested

/-! # Lemmas: macro calls and what becomes of them -/

namespace AutoEnums

open Spec

theorem macrosOf_mk (k : Kind) (as : List Attr) (ks : List Node) : macrosOf (.mk k as ks) =
    if isMacro k then [.mk k as ks] else if hidesCode k then [] else macrosOfL ks := by rw [macrosOf]

theorem macrosOfL_append : ∀ (a b : List Node), macrosOfL (a ++ b) = macrosOfL a ++ macrosOfL b
  | [], b => by simp [macrosOfL]
  | x :: a, b => by simp [macrosOfL, macrosOfL_append a b]

theorem macrosOf_ctor (J : Job) (as : List Attr) (e : Node) : macrosOf (ctor J as e) = macrosOf e := by
  simp [ctor, construct, macrosOf, macrosOfL, isMacro, hidesCode]

theorem macrosOfL_wrapHead (J : Job) (ks : List Node) : macrosOfL (wrapHead J ks) = macrosOfL ks := by
  cases ks with
  | nil => simp [wrapHead, macrosOfL, macrosOf_ctor, macrosOf, isMacro, hidesCode]
  | cons e es => simp [wrapHead, macrosOfL, macrosOf_ctor]

theorem macrosOfL_wrapLast (J : Job) : ∀ (ks : List Node), macrosOfL (wrapLast J ks) = macrosOfL ks
  | [] => rfl
  | [e] => by simp [wrapLast, macrosOfL, macrosOf_ctor]
  | e :: e' :: es => by
    rw [wrapLast, macrosOfL, macrosOfL_wrapLast J (e' :: es)]
    rfl

theorem macrosOfL_wrapAll (J : Job) (ks : List Node) : macrosOfL (wrapAll J ks) = macrosOfL ks := by
  simp only [wrapAll, macrosOfL, macrosOf_mk, macrosOf_ctor, isMacro, hidesCode]
  simp

theorem macrosOf_tryMatch (as : List Attr) (en v : Ident) (e : Node) :
    macrosOf (tryMatch as en v e) = macrosOf e := by
  simp [tryMatch, construct, macrosOf, macrosOfL, isMacro, hidesCode]

theorem macrosOf_assemble (J : Job) (w : Where) (ts : List Target) (r : Role) (k : Kind) (as : List Attr)
    (ks ks' : List Node) (hk : hidesCode k = false) :
    macrosOf (assemble J w ts r k as ks ks') = macrosOfL ks' := by
  have hm : isMacro k = false := by cases k <;> first | rfl | cases hk
  have hz : ∀ as ks, macrosOf (.mk k as ks) = macrosOfL ks := by
    intro as ks
    rw [macrosOf_mk, hm, hk]
    simp
  unfold assemble
  dsimp only
  split
  · split
    · rw [hz, macrosOfL_wrapHead]
    · rw [hz]
  · split
    · rw [hz, macrosOfL_wrapHead]
    · rw [hz]
  · split
    · split
      · rw [macrosOf_tryMatch]; simp [macrosOfL]
      · rw [hz]
    · rw [hz]
  · cases hk
  · rw [hz]
    split
    · rw [macrosOfL_wrapLast]
    · rfl
  · rw [hz]
    split
    · rw [macrosOfL_wrapAll]
    · rfl
  · rw [hz]
    split
    · rw [macrosOfL_wrapAll]
    · rfl
  · rw [hz]

theorem macrosOfL_treat {J : Job} {w : Where} : ∀ {ks : List Node} {ts : Nat → List Target}
    {rs : Nat → Role}, (∀ c ∈ ks, ∀ w ts r, macrosOf (treat J w ts r c) = (macrosOf c).flatMap (unmark J.marker)) →
    macrosOfL (treatL J w ts rs ks) = (macrosOfL ks).flatMap (unmark J.marker)
  | [], _, _, _ => rfl
  | a :: ks, ts, rs, h => by
    rw [treatL, macrosOfL, macrosOfL, List.flatMap_append, h a (by simp), macrosOfL_treat fun c hc => h c (by simp [hc])]

/-- The macro calls of what becomes of a tree. -/
theorem macrosOf_treat (J : Job) : ∀ (n : Node) (w : Where) (ts : List Target) (r : Role),
    macrosOf (treat J w ts r n) = (macrosOf n).flatMap (unmark J.marker) := by
  refine Node.ind ?_
  intro k as ks ih w ts r
  rw [treat.eq_def J w]
  dsimp only
  cases hk : hidesCode k with
  | false =>
    have hm : isMacro k = false := by cases k <;> first | rfl | cases hk
    rw [macrosOf_assemble _ _ _ _ _ _ _ _ hk, macrosOf_mk, hm, hk]
    simp only [Bool.false_eq_true, if_false]
    exact macrosOfL_treat fun c hc => ih c hc
  | true =>
    cases k <;> try (cases hk; done)
    case eMacro p t =>
      rw [macrosOf_mk]
      simp only [isMacro, if_true, List.flatMap_cons, List.flatMap_nil, List.append_nil, assemble, carries,
        isExpression]
      rcases ks with _ | ⟨e, _ | ⟨e2, es⟩⟩
      · simp [macrosOf_mk, isMacro, unmark]
      · simp only [unmark]
        by_cases h : p = macroPath J.marker
        · rw [if_pos h, if_pos (show p = ⟨false, [⟨J.marker, none⟩]⟩ from h), macrosOf_ctor]
        · rw [if_neg h, if_neg (show ¬p = ⟨false, [⟨J.marker, none⟩]⟩ from h)]
          simp [macrosOf_mk, isMacro]
      · simp [macrosOf_mk, isMacro, unmark]
    all_goals simp [assemble, carries, isExpression, macrosOf_mk, isMacro, hidesCode, unmark]

/-! ## Up to the names of variants -/

theorem isMacro_blur (en : Ident) (k : Kind) : isMacro (blurK en k) = isMacro k := by
  by_cases h : ∃ p, k = .ePath false p
  · obtain ⟨p, rfl⟩ := h
    rw [blurK_blurPath]
    rfl
  · rw [blurK_other en fun p hp => h ⟨p, hp⟩]

theorem blurL_append (en : Ident) : ∀ (a b : List Node), blurL en (a ++ b) = blurL en a ++ blurL en b
  | [], b => by simp [blurL]
  | x :: a, b => by simp [blurL, blurL_append en a b]

theorem macrosOf_blur (en : Ident) : ∀ (n : Node), macrosOf (blur en n) = blurL en (macrosOf n) := by
  refine Node.ind ?_
  intro k as ks ih
  have hl : ∀ l : List Node, (∀ c ∈ l, c ∈ ks) → macrosOfL (blurL en l) = blurL en (macrosOfL l) := by
    intro l
    induction l with
    | nil => intro _; rfl
    | cons a l ihl =>
      intro h
      rw [blurL, macrosOfL, macrosOfL, blurL_append, ih a (h a (by simp)), ihl fun c hc => h c (by simp [hc])]
  rw [blur, macrosOf_mk, macrosOf_mk, isMacro_blur, hidesCode_blur]
  split
  · rw [blurL, blur]; rfl
  · split
    · rfl
    · exact hl ks fun _ h => h

theorem macrosOfL_blur (en : Ident) (l : List Node) : macrosOfL (blurL en l) = blurL en (macrosOfL l) := by
  induction l with
  | nil => rfl
  | cons a l ihl => rw [blurL, macrosOfL, macrosOfL, blurL_append, macrosOf_blur, ihl]

/-- The labels of the macro calls are labels of the tree. -/
theorem labels_macrosOf : ∀ (n : Node), ∀ x ∈ macrosOf n, ∀ l ∈ labels x, l ∈ labels n := by
  refine Node.ind ?_
  intro k as ks ih x hx l hl
  have hL : ∀ ms : List Node, (∀ c ∈ ms, c ∈ ks) → x ∈ macrosOfL ms → ∃ c ∈ ms, x ∈ macrosOf c := by
    intro ms
    induction ms with
    | nil => intro _ h; cases h
    | cons a ms ihm =>
      intro hm h
      rw [macrosOfL] at h
      rcases List.mem_append.mp h with h | h
      · exact ⟨a, by simp, h⟩
      · obtain ⟨c, h1, h2⟩ := ihm (fun c hc => hm c (by simp [hc])) h
        exact ⟨c, by simp [h1], h2⟩
  rw [macrosOf_mk] at hx
  split at hx
  · rw [List.mem_singleton.mp hx] at hl
    exact hl
  · split at hx
    · cases hx
    · obtain ⟨c, h1, h2⟩ := hL ks (fun _ h => h) hx
      rw [labels_mk]
      exact List.mem_cons_of_mem _ (mem_labelsL.mpr ⟨c, h1, ih c h1 x h2 l hl⟩)

theorem unmark_fresh {en : Ident} {m : String} {x : Node} (hx : ∀ l ∈ labels x, isCtor en l = 0) :
    ∀ y ∈ unmark m x, ∀ l ∈ labels y, isCtor en l = 0 := by
  intro y hy l hl
  unfold unmark at hy
  have hstrip : ∀ p t as ks, (∀ l ∈ labels (.mk (.eMacro p t) as ks), isCtor en l = 0) →
      l ∈ labels (.mk (.eMacro p t) (strip as) ks) → isCtor en l = 0 := by
    intro p t as ks h1 h2
    rw [labels_mk] at h1 h2
    rcases List.mem_cons.mp h2 with rfl | h2
    · rfl
    · exact h1 _ (List.mem_cons_of_mem _ h2)
  split at hy
  · split at hy
    · have := labels_macrosOf _ y hy l hl
      refine hx l ?_
      rw [labels_mk]
      exact List.mem_cons_of_mem _ (mem_labelsL.mpr ⟨_, by simp, this⟩)
    · rw [List.mem_singleton.mp hy] at hl
      exact hstrip _ _ _ _ hx hl
  · rw [List.mem_singleton.mp hy] at hl
    exact hstrip _ _ _ _ hx hl
  · rw [List.mem_singleton.mp hy] at hl
    exact hx l hl

theorem fresh_blurL {en : Ident} : ∀ (l l' : List Node), (∀ x ∈ l, ∀ y ∈ labels x, isCtor en y = 0) →
    blurL en l' = blurL en l → l' = l
  | [], [], _, _ => rfl
  | [], _ :: _, _, h => by simp [blurL] at h
  | _ :: _, [], _, h => by simp [blurL] at h
  | a :: l, b :: l', hf, h => by
    simp only [blurL, List.cons.injEq] at h
    rw [fresh_blur a b (hf a (by simp)) h.1, fresh_blurL l l' (fun x hx => hf x (by simp [hx])) h.2]

/-! ## The whole input -/

theorem macrosOf_start (n : Node) : macrosOf (startOf n) = macrosOfL (content n) := by
  have hb : ∀ e, macrosOf (bodyOf e) = macrosOf e := by
    intro e
    unfold bodyOf
    split
    · simp [macrosOf_mk, isMacro, hidesCode, macrosOfL]
    · rfl
  unfold startOf targetOf content
  split
  · rw [hb]; simp [macrosOfL]
  · rw [hb]; simp [macrosOfL]
  · rw [hb]; simp [macrosOf_mk, isMacro, hidesCode]
  · rw [hb]; simp [macrosOfL]

theorem macrosOfL_treatBody (J : Job) (ss : List Node) :
    macrosOfL (treatBody J ss) = (macrosOfL ss).flatMap (unmark J.marker) :=
  macrosOfL_treat fun c _ => macrosOf_treat J c

theorem macrosOf_treatExpr (en : Ident) (m : String) (semi : Bool) (e : Node) :
    macrosOf (treatExpr en m semi e) = (macrosOf e).flatMap (unmark m) := by
  unfold treatExpr
  split
  · rename_i b
    have : (closureJob en m b).marker = m := by unfold closureJob; split <;> rfl
    rw [macrosOf_mk, macrosOf_mk]
    simp only [isMacro, hidesCode, macrosOfL, Bool.false_eq_true, if_false, List.append_nil, macrosOf_treat, this]
  · exact macrosOf_treat _ _ _ _ _

theorem macrosOf_treatInput {en : Ident} {m : String} {n : Node} (ho : ordinary en m n = true) :
    macrosOfL (content (treatInput en m n)) = (macrosOfL (content n)).flatMap (unmark m) := by
  unfold ordinary at ho
  split at ho
  · simp [treatInput, content, macrosOfL, macrosOf_treatExpr]
  · simp [treatInput, content, macrosOfL, macrosOf_treatExpr]
  · rename_i name ret as asb ss
    have : (fnJob en m ret (.mk .block asb ss)).marker = m := by unfold fnJob; split <;> (try split) <;> rfl
    simp only [treatInput, content, macrosOfL_treatBody, this]
  · rename_i h1 h2 h3
    simp only [Bool.and_eq_true] at ho
    have he := ho.1
    have ht : treatInput en m n = treatExpr en m false n := by
      unfold treatInput
      split
      · cases he
      · cases he
      · cases he
      · rfl
    have hc : ∀ q, isExprNode q = true → content q = [q] := by
      intro q hq
      obtain ⟨k, as, ks⟩ := q
      cases k <;> first | (simp [content]; done) | cases hq
    rw [ht, hc _ he, hc _ (isExprNode_treatExpr (en := en) (m := m) (semi := false) he)]
    simp [macrosOfL, macrosOf_treatExpr]

theorem macrosOf_placeEnum (en : Ident) (k : Nat) (ds : List Path) (n : Node) :
    macrosOfL (content (placeEnum (enumDecl en k ds) n)) = macrosOfL (content n) := by
  have hi : ∀ e, macrosOf (inBlock (enumDecl en k ds) e) = macrosOf e := by
    intro e
    simp [inBlock, enumDecl, macrosOf_mk, macrosOfL, isMacro, hidesCode]
  have he : macrosOf (enumDecl en k ds) = [] := by simp [enumDecl, macrosOf_mk, isMacro, hidesCode]
  generalize hg : enumDecl en k ds = g at *
  unfold placeEnum
  split
  · simp [content, macrosOfL, hi]
  · simp [content, macrosOfL, hi]
  · simp [content, macrosOfL, he]
  · rename_i h1 h2 h3
    have : content n = [n] := by
      unfold content
      split
      · exact (h1 _ _ _ rfl).elim
      · exact (h2 _ _ _ _ rfl).elim
      · exact (h3 _ _ _ _ _ rfl).elim
      · rfl
    rw [this]
    have : content (inBlock g n) = [inBlock g n] := by simp [content, inBlock]
    rw [this]
    simp [macrosOfL, hi]

theorem within_labels {x n : Node} (h : Within x n) : ∀ l ∈ labels x, l ∈ labels n := by
  induction h with
  | here => exact fun _ h => h
  | kid _ hc _ ih =>
    intro l hl
    rw [labels_mk]
    exact List.mem_cons_of_mem _ (mem_labelsL.mpr ⟨_, hc, ih l hl⟩)

theorem Treats.macros {b : Bool} {traits : List Path} {en : Ident} {m : String} {n out : Node}
    (h : Treats b traits en m n out) (hs : Simple en m n) :
    macrosOf (startOf out) = (macrosOf (startOf n)).flatMap (unmark m) := by
  obtain ⟨n', h1, ho⟩ := h
  have ho : macrosOfL (content out) = macrosOfL (content n') := by
    rcases ho with rfl | ⟨k, ds, rfl⟩
    · rfl
    · exact macrosOf_placeEnum _ _ _ _
  rw [macrosOf_start, macrosOf_start, ho]
  have h2 : blurL en (macrosOfL (content n')) = blurL en ((macrosOfL (content n)).flatMap (unmark m)) := by
    rw [← macrosOfL_blur, ← content_blur, h1, content_blur, macrosOfL_blur,
      content_retype b traits _ (treatInput_local hs.ordinary), macrosOf_treatInput hs.ordinary]
  refine fresh_blurL _ _ ?_ h2
  intro x hx
  obtain ⟨y, hy, hyx⟩ := List.mem_flatMap.mp hx
  refine unmark_fresh (fun l hl => ?_) x hyx
  rw [← macrosOf_start] at hy
  exact (hs.start l (labels_macrosOf _ y hy l hl)).2

end AutoEnums
