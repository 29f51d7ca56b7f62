import Verif.Lemmas.OutlineWhole
import Verif.Lemmas.Accepted

/-! # What is outside of inner attributes is treated as if it were all there is -/

namespace AutoEnums

open Spec

/-- The input without the inputs of its inner attributes is a simple one, for which the same kind of
expressions is to be wrapped (the `?` in the inputs of inner attributes do not make a difference to
whether `?` are desugared). -/
structure Outer (en : Ident) (m : String) (n : Node) : Prop where
  shaped : shaped (startOf n) = true
  simple : Simple en m (outlineInput n)
  job : jobOf en m (outlineInput n) = jobOf en m n

variable {env : Env} {traits : List Path} {en : Ident} {m : String} {n out r : Node}

theorem outlineL_length (blk : Bool) : ∀ l : List Node, (outlineL blk l).length = l.length
  | [] => by rw [outlineL]
  | n :: l => by rw [outlineL, List.length_cons, outlineL_length blk l, List.length_cons]

/-- Only holes have another kind. -/
theorem outline_kind {e : Node} {k : Kind} {as : List Attr} {ks : List Node} (h : outline e = .mk k as ks) :
    .mk k as ks = hole ∨ ∃ ks0, e = .mk k as ks0 ∧ (ks = ks0 ∨ ks = outlineL k.isBlockLike ks0) := by
  obtain ⟨k0, as0, ks0⟩ := e
  rw [outline_mk] at h
  split at h
  · exact .inl h.symm
  · split at h
    · cases h; exact .inr ⟨_, rfl, .inl rfl⟩
    · cases h; exact .inr ⟨_, rfl, .inr rfl⟩

theorem outline_kids {e : Node} {k : Kind} {as : List Attr} {ks : List Node} (h : outline e = .mk k as ks)
    (hk : ∀ l, k ≠ .eContinue l) : ∃ ks0, e = .mk k as ks0 ∧ (ks = ks0 ∨ ks = outlineL k.isBlockLike ks0) := by
  rcases outline_kind h with h | h
  · cases h; exact absurd rfl (hk _)
  · exact h

theorem outline_closure {e : Node} {i : String} {as : List Attr} {b : Node}
    (h : outline e = .mk (.eClosure i) as [b]) : ∃ b0, e = .mk (.eClosure i) as [b0] := by
  obtain ⟨ks0, rfl, h'⟩ := outline_kids h (by simp)
  have hl : ks0.length = 1 := by
    rcases h' with h | h
    · rw [← h]; rfl
    · rw [← outlineL_length (Kind.eClosure i).isBlockLike, ← h]; rfl
  obtain ⟨b0, rfl⟩ := List.length_eq_one_iff.mp hl
  exact ⟨b0, rfl⟩

theorem outerExpr_eq {semi : Bool} {e : Node}
    (ha : ∀ a ∈ allAttrs (outlineTarget e), named "auto_enum" a = false)
    (ho : ordinaryExpr en m semi (outlineTarget e) = true) (hs : shaped (bodyOf e) = true)
    (hj : semi = false → jobOfExpr en m (outlineTarget e) = jobOfExpr en m e) :
    ordinaryOuterExpr en m semi e = true ∧
    treatOuterExpr en m semi e = treatExpr en m semi (outlineTarget e) := by
  by_cases hc : ∃ i as b, e = .mk (.eClosure i) as [b]
  · obtain ⟨i, as, b, rfl⟩ := hc
    cases semi with
    | false =>
      simp only [outlineTarget, jobOfExpr, true_implies, ordinaryExpr, Bool.and_eq_true, bodyOf] at *
      rw [hj] at ho
      simp only [ordinaryOuterExpr, treatOuterExpr, treatExpr, hj, hs, ho.2, Bool.and_self, and_self]
    | true =>
      have hx : outline (.mk (.eClosure i) as [b]) = outlineTarget (.mk (.eClosure i) as [b]) := by
        have h1 : as.any (named "auto_enum") = false := by
          rw [List.any_eq_false]
          intro a hm
          rw [ha a (by simp only [outlineTarget, allAttrs_mk]; simp [hm])]
          simp
        rw [outline_mk, if_neg (by simp [apart, h1]), if_neg (by simp [hidesCode])]
        simp [outlineL, Kind.isBlockLike, outlineTarget]
      simp only [ordinaryOuterExpr, treatOuterExpr, treatExpr, ordinaryExpr] at *
      rw [hx]
      exact ⟨ho, rfl⟩
  · have hx : outlineTarget e = outline e := by
      unfold outlineTarget
      split
      · exact absurd ⟨_, _, _, rfl⟩ hc
      · rfl
    have hc' : ¬ ∃ i as b, outline e = .mk (.eClosure i) as [b] := by
      rintro ⟨i, as, b, h⟩
      obtain ⟨b0, rfl⟩ := outline_closure h
      exact hc ⟨_, _, _, rfl⟩
    rw [hx] at ho ⊢
    unfold ordinaryExpr at ho
    unfold ordinaryOuterExpr treatOuterExpr treatExpr
    split at ho
    · rename_i h; exact absurd ⟨_, _, _, h⟩ hc'
    · constructor
      · split
        · exact absurd ⟨_, _, _, rfl⟩ hc
        · exact ho
      · split
        · exact absurd ⟨_, _, _, rfl⟩ hc
        · rfl

theorem outlineTarget_kind {e : Node} {k : Kind} {as : List Attr} {ks : List Node}
    (h : outlineTarget e = .mk k as ks) (hk : ∀ l, k ≠ .eContinue l) (hc : ∀ i, k ≠ .eClosure i) :
    ∃ ks0, e = .mk k as ks0 ∧ (ks = ks0 ∨ ks = outlineL k.isBlockLike ks0) := by
  unfold outlineTarget at h
  split at h
  · cases h; exact absurd rfl (hc _)
  · exact outline_kids h hk

theorem isExprNode_outlineTarget {e : Node} (h : isExprNode (outlineTarget e) = true) : isExprNode e = true := by
  unfold outlineTarget at h
  split at h
  · rfl
  · obtain ⟨k, as, ks⟩ := e
    rw [outline_mk] at h
    split at h
    · rename_i ha
      unfold apart at ha
      split at ha <;> first | cases ha | (simp only [Bool.and_eq_true] at ha; have ha := ha.1; cases k <;> first | rfl | cases ha)
    · split at h <;> exact h

theorem Outer.eq (h : Outer en m n) :
    ordinaryOuter en m n = true ∧ treatOuter en m n = treatInput en m (outlineInput n) := by
  obtain ⟨hs, ⟨ho, ha, hf⟩, hj⟩ := h
  clear hf
  by_cases h1 : ∃ semi as e, n = .mk (.sExpr semi) as [e]
  · obtain ⟨semi, as, e, rfl⟩ := h1
    simp only [outlineInput, ordinary, startOf, targetOf] at *
    have ha' : ∀ a ∈ allAttrs (outlineTarget e), named "auto_enum" a = false := fun a h =>
      ha a (by rw [allAttrs_mk]; simp [attrsL_cons, h])
    obtain ⟨g1, g2⟩ := outerExpr_eq ha' ho hs (by rintro rfl; exact hj)
    simp only [ordinaryOuter, treatOuter, treatInput, g1, g2, and_self]
  · by_cases h2 : ∃ p as e els, n = .mk (.sLocal p) as (e :: els)
    · obtain ⟨p, as, e, els, rfl⟩ := h2
      simp only [outlineInput, ordinary, startOf, targetOf] at *
      have ha' : ∀ a ∈ allAttrs (outlineTarget e), named "auto_enum" a = false := fun a h =>
        ha a (by rw [allAttrs_mk]; simp [attrsL_cons, h])
      obtain ⟨g1, g2⟩ := outerExpr_eq ha' ho hs (fun _ => hj)
      simp only [ordinaryOuter, treatOuter, treatInput, g1, g2, and_self]
    · by_cases h3 : ∃ name ret as asb ss, n = .mk (.iFn name ret) as [.mk .block asb ss]
      · obtain ⟨name, ret, as, asb, ss, rfl⟩ := h3
        simp only [outlineInput, ordinary, startOf, targetOf, bodyOf, jobOf, Bool.and_eq_true, Spec.shaped,
          Bool.true_and] at *
        rw [hj] at ho
        simp only [ordinaryOuter, treatOuter, treatInput, hs, ho.2, hj, Bool.and_self, and_self]
      · have ht : targetOf n = n := by
          unfold targetOf
          split
          · exact absurd ⟨_, _, _, rfl⟩ h1
          · exact absurd ⟨_, _, _, _, rfl⟩ h2
          · exact absurd ⟨_, _, _, _, _, rfl⟩ h3
          · rfl
        have hi : outlineInput n = outlineTarget n := by
          unfold outlineInput
          split
          · exact absurd ⟨_, _, _, rfl⟩ h1
          · exact absurd ⟨_, _, _, _, rfl⟩ h2
          · exact absurd ⟨_, _, _, _, _, rfl⟩ h3
          · rfl
        have hoo : ordinaryOuter en m n = (isExprNode n && ordinaryOuterExpr en m false n) := by
          unfold ordinaryOuter
          split
          · exact absurd ⟨_, _, _, rfl⟩ h1
          · exact absurd ⟨_, _, _, _, rfl⟩ h2
          · exact absurd ⟨_, _, _, _, _, rfl⟩ h3
          · rfl
        have htt : treatOuter en m n = treatOuterExpr en m false n := by
          unfold treatOuter
          split
          · exact absurd ⟨_, _, _, rfl⟩ h1
          · exact absurd ⟨_, _, _, _, rfl⟩ h2
          · exact absurd ⟨_, _, _, _, _, rfl⟩ h3
          · rfl
        rw [hi] at ho ha hj ⊢
        clear hi
        have h1' : ∀ semi as e, outlineTarget n ≠ .mk (.sExpr semi) as [e] := by
          intro semi as e h
          obtain ⟨ks0, rfl, h'⟩ := outlineTarget_kind h (by simp) (by simp)
          have hl : ks0.length = 1 := by
            rcases h' with h | h
            · rw [← h]; rfl
            · rw [← outlineL_length (Kind.sExpr semi).isBlockLike, ← h]; rfl
          obtain ⟨b0, rfl⟩ := List.length_eq_one_iff.mp hl
          exact h1 ⟨_, _, _, rfl⟩
        have h2' : ∀ p as e els, outlineTarget n ≠ .mk (.sLocal p) as (e :: els) := by
          intro p as e els h
          obtain ⟨ks0, rfl, h'⟩ := outlineTarget_kind h (by simp) (by simp)
          cases ks0 with
          | nil => rcases h' with h | h <;> simp [outlineL] at h
          | cons => exact h2 ⟨_, _, _, _, rfl⟩
        have h3' : ∀ name ret as asb ss, outlineTarget n ≠ .mk (.iFn name ret) as [.mk .block asb ss] := by
          intro name ret as asb ss h
          obtain ⟨ks0, rfl, h'⟩ := outlineTarget_kind h (by simp) (by simp)
          rcases h' with h | h
          · subst h; exact h3 ⟨_, _, _, _, _, rfl⟩
          · have hl : ks0.length = 1 := by
              rw [← outlineL_length (Kind.iFn name ret).isBlockLike, ← h]; rfl
            obtain ⟨b0, rfl⟩ := List.length_eq_one_iff.mp hl
            simp only [outlineL, Kind.isBlockLike, Bool.false_and, Bool.false_eq_true, if_false] at h
            injection h with h
            obtain ⟨ss0, rfl, _⟩ := outline_kids h.symm (by simp)
            exact h3 ⟨_, _, _, _, _, rfl⟩
        have hii : treatInput en m (outlineTarget n) = treatExpr en m false (outlineTarget n) := by
          generalize outlineTarget n = x at *
          unfold treatInput
          split
          · exact (h1' _ _ _ rfl).elim
          · exact (h2' _ _ _ _ rfl).elim
          · exact (h3' _ _ _ _ _ rfl).elim
          · rfl
        have hor : (isExprNode (outlineTarget n) && ordinaryExpr en m false (outlineTarget n)) = true := by
          rw [← ho]
          generalize outlineTarget n = x at *
          unfold ordinary
          split
          · exact (h1' _ _ _ rfl).elim
          · exact (h2' _ _ _ _ rfl).elim
          · exact (h3' _ _ _ _ _ rfl).elim
          · rfl
        rw [Bool.and_eq_true] at hor
        have hx := isExprNode_outlineTarget hor.1
        have hjj : ∀ x, isExprNode x = true → jobOf en m x = jobOfExpr en m x := by
          intro x hx
          unfold jobOf
          split
          · cases hx
          · cases hx
          · congr 1
            unfold targetOf
            split <;> first | cases hx | rfl
        rw [hjj _ hor.1, hjj _ hx] at hj
        rw [startOf, ht] at hs
        obtain ⟨g1, g2⟩ := outerExpr_eq ha hor.2 hs (fun _ => hj)
        rw [hoo, htt, hii, hx, g1, g2]
        exact ⟨rfl, rfl⟩

theorem fills_place (g : Node) {a t : Node} (h : Fills en a t) : Fills en (placeEnum g a) (placeEnum g t) := by
  have hin : ∀ {a t : Node}, FillsL en [a] [t] → Fills en (inBlock g a) (inBlock g t) :=
    fun h => .node rfl (.cons (fills_refl g) (.cons (.node rfl h) .nil))
  cases h with
  | hole hx =>
    rw [placeEnum_expr (by rw [← isExprNode_eq]; exact hx), placeEnum_expr rfl]
    exact hin (.cons (.hole hx) .nil)
  | @node k' k ks' ks as hb hl =>
    have hrig : ∀ k0 : Kind, (∀ p, k0 ≠ .ePath false p) → k = k0 ∨ k' = k0 → k = k0 ∧ k' = k0 := by
      intro k0 hk h
      rcases h with rfl | rfl
      · exact ⟨rfl, blurK_rigid hb hk⟩
      · exact ⟨blurK_rigid hb.symm hk, rfl⟩
    by_cases h1 : ∃ semi e, (k = .sExpr semi ∨ k' = .sExpr semi) ∧ (ks = [e] ∨ ks' = [e])
    · obtain ⟨semi, e, h1, h2⟩ := h1
      obtain ⟨rfl, rfl⟩ := hrig _ (by simp) h1
      have hlen := fillsL_length hl
      have h3 : ks.length = 1 ∧ ks'.length = 1 := by
        rcases h2 with rfl | rfl <;> simp_all
      obtain ⟨x, rfl⟩ := List.length_eq_one_iff.mp h3.1
      obtain ⟨x', rfl⟩ := List.length_eq_one_iff.mp h3.2
      exact .node rfl (.cons (hin hl) .nil)
    · by_cases h2 : ∃ p e els, (k = .sLocal p ∨ k' = .sLocal p) ∧ (ks = e :: els ∨ ks' = e :: els)
      · obtain ⟨p, e, els, h2, h3⟩ := h2
        obtain ⟨rfl, rfl⟩ := hrig _ (by simp) h2
        cases hl with
        | nil => rcases h3 with h3 | h3 <;> cases h3
        | cons a b => exact .node rfl (.cons (hin (.cons a .nil)) b)
        | letHole b => exact .node rfl (.cons (hin (.letHole .nil)) b)
      · by_cases h3 : ∃ name ret asb ss, (k = .iFn name ret ∨ k' = .iFn name ret) ∧
            (ks = [.mk .block asb ss] ∨ ks' = [.mk .block asb ss])
        · obtain ⟨name, ret, asb, ss, h3, h4⟩ := h3
          obtain ⟨rfl, rfl⟩ := hrig _ (by simp) h3
          have h5 : ∃ ss ss', ks = [.mk .block asb ss] ∧ ks' = [.mk .block asb ss'] ∧ FillsL en ss' ss := by
            rcases h4 with rfl | rfl
            · cases hl with
              | cons a b =>
                cases b
                cases a with
                | node hb hl => cases blurK_rigid hb (by simp); exact ⟨_, _, rfl, rfl, hl⟩
            · cases hl with
              | cons a b =>
                cases b
                cases a with
                | hole hx => cases hx
                | node hb hl => cases blurK_rigid hb.symm (by simp); exact ⟨_, _, rfl, rfl, hl⟩
          obtain ⟨ss, ss', rfl, rfl, h5⟩ := h5
          exact .node rfl (.cons (.node rfl (.cons (fills_refl g) h5)) .nil)
        · have hp : ∀ k0 ks0, (k0 = k ∧ ks0 = ks ∨ k0 = k' ∧ ks0 = ks') →
              placeEnum g (.mk k0 as ks0) = inBlock g (.mk k0 as ks0) := by
            intro k0 ks0 h0
            unfold placeEnum
            split
            · rename_i h; cases h
              exact absurd ⟨_, _, h0.imp (fun h => h.1.symm) (fun h => h.1.symm),
                h0.imp (fun h => h.2.symm) (fun h => h.2.symm)⟩ h1
            · rename_i h; cases h
              exact absurd ⟨_, _, _, h0.imp (fun h => h.1.symm) (fun h => h.1.symm),
                h0.imp (fun h => h.2.symm) (fun h => h.2.symm)⟩ h2
            · rename_i h; cases h
              exact absurd ⟨_, _, _, _, h0.imp (fun h => h.1.symm) (fun h => h.1.symm),
                h0.imp (fun h => h.2.symm) (fun h => h.2.symm)⟩ h3
            · rfl
          rw [hp _ _ (.inl ⟨rfl, rfl⟩), hp _ _ (.inr ⟨rfl, rfl⟩)]
          exact hin (.cons (.node hb hl) .nil)

end AutoEnums
