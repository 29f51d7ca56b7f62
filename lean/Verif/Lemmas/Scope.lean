import Verif.Lemmas.Balance
import Verif.Spec.Scope

/-! # Scopes of generated enums (for C26) -/

namespace AutoEnums

open Spec

/-- A context keeps its enum name and only adds variants. -/
theorem T.grows' {env : Env} {b : Bool} {cx cx' : Cx} {n n' : Node} (h : T env b cx n cx' n') :
    cx'.ident = cx.ident ∧ cx.variants <+: cx'.variants := by
  induction h with
  | refl => exact ⟨rfl, List.prefix_refl _⟩
  | trans _ _ h1 h2 => exact ⟨h2.1.trans h1.1, h1.2.trans h2.2⟩
  | book h => exact ⟨h.ident, by rw [h.variants]; exact List.prefix_refl _⟩
  | kid _ _ _ h => exact h
  | wrapVal => exact ⟨rfl, by simp [Cx.nextExpr, Cx.nextExprAttrs]⟩
  | wrapArm => exact ⟨rfl, by simp [Cx.nextExpr, Cx.nextExprAttrs]⟩
  | wrapBlock => exact ⟨rfl, by simp [Cx.nextExpr, Cx.nextExprAttrs]⟩
  | fill => exact ⟨rfl, by simp [Cx.nextExpr, Cx.nextExprAttrs]⟩
  | marker => exact ⟨rfl, by simp [Cx.nextExprAttrs]⟩
  | tryOp => exact ⟨rfl, by simp [Cx.nextExpr, Cx.nextExprAttrs]⟩
  | dropAttr => exact ⟨rfl, List.prefix_refl _⟩
  | unmark => exact ⟨rfl, List.prefix_refl _⟩
  | badMark => exact ⟨rfl, List.prefix_refl _⟩
  | dropRec => exact ⟨rfl, List.prefix_refl _⟩
  | child _ _ _ _ _ _ heq ih =>
    have hb := join_core heq
    exact ⟨hb.ident.trans ih.1, by rw [hb.variants]; exact ih.2⟩
  | exPlain _ _ h => exact h
  | exErr _ _ h => exact h
  | exTwo _ _ _ h => exact h
  | exExpr _ _ h => exact h
  | exKid _ _ h => exact h
  | exPat _ _ h => exact h
  | exFn _ _ h => exact h
  | exSetup hb _ h => exact ⟨h.1.trans hb.ident, by rw [← hb.variants]; exact h.2⟩

section
variable {en vn : Ident}

theorem freeUses_mk (k : Kind) (as : List Attr) (ks : List Node) :
    freeUses en vn (.mk k as ks) = if k.isBlockLike && ks.any (declares en vn) then 0
      else isUse en vn (k, as) + freeUsesL en vn ks := by rw [freeUses]

@[simp] theorem freeUsesL_nil : freeUsesL en vn [] = 0 := by rw [freeUsesL]

@[simp] theorem freeUsesL_cons (n : Node) (ns : List Node) :
    freeUsesL en vn (n :: ns) = freeUses en vn n + freeUsesL en vn ns := by rw [freeUsesL]

@[simp] theorem freeUsesL_append (a b : List Node) :
    freeUsesL en vn (a ++ b) = freeUsesL en vn a + freeUsesL en vn b := by
  induction a with
  | nil => simp
  | cons n ns ih => simp [ih]; omega

theorem freeUses_plain {k : Kind} (hk : k.isBlockLike = false) (as : List Attr) (ks : List Node) :
    freeUses en vn (.mk k as ks) = isUse en vn (k, as) + freeUsesL en vn ks := by
  rw [freeUses_mk, hk]; simp

theorem freeUses_le (n : Node) : freeUses en vn n ≤ uses en vn n := by
  induction n using Node.ind with
  | h k as ks ih =>
    have hl : ∀ l : List Node, (∀ c ∈ l, c ∈ ks) → freeUsesL en vn l ≤ weighL (isUse en vn) l := by
      intro l
      induction l with
      | nil => simp
      | cons a l ihl =>
        intro hm
        have h1 := ih a (hm a (by simp))
        have h2 := ihl (fun c hc => hm c (by simp [hc]))
        rw [uses_eq] at h1
        simp; omega
    have := hl ks (fun _ h => h)
    rw [freeUses_mk, uses_eq, weigh_mk]
    split <;> omega

theorem freeUses_findRemove {n n' : Node} {s : String} {a : Attr}
    (h : n.findRemoveAttr s = some (a, n')) : freeUses en vn n' = freeUses en vn n := by
  obtain ⟨_, _, _, l1, l2, h1, h2⟩ := Node.findRemoveAttr_some h
  cases n with
  | mk k as ks =>
    simp only [Node.kind, Node.kids, Node.rawAttrs] at h1 h2
    subst h1 h2
    simp only [freeUses_mk, isUse_attrs en vn k (l1 ++ l2) (l1 ++ a :: l2)]

/-- The variant is not one of the context's. -/
def Other (en vn : Ident) (cx : Cx) : Prop := en = cx.ident → vn ∉ cx.variants

theorem freeUses_next {cx : Cx} {as : List Attr} {e : Node}
    (h : Other en vn (cx.nextExprAttrs as e).1) :
    freeUses en vn (cx.nextExprAttrs as e).2 = freeUses en vn e := by
  simp only [Cx.nextExprAttrs, exprCall, pathE, freeUses_plain (show Kind.eCall.isBlockLike = false from rfl),
    freeUsesL_cons, freeUsesL_nil, freeUses_plain (show (Kind.ePath _ _).isBlockLike = false from rfl),
    ofIdents2]
  have : isUse en vn (.ePath false (variantPath cx.ident (variantIdent cx.variants.length)),
      ([] : List Attr)) = 0 := by
    simp only [isUse, variantPath_inj]
    split
    · rename_i hh
      exact absurd (by simp [Cx.nextExprAttrs, hh.2]) (h hh.1.symm)
    · rfl
  rw [this]
  simp [isUse]

theorem Other.mono {cx cx' : Cx} (h1 : cx'.ident = cx.ident) (h2 : cx.variants <+: cx'.variants)
    (h : Other en vn cx') : Other en vn cx :=
  fun hh hm => h (hh.trans h1.symm) (h2.subset hm)

theorem declares_item {n : Node} (h : declares en vn n = true) : ∃ i, n.kind = .sItem i := by
  unfold declares at h
  split at h
  · exact ⟨_, rfl⟩
  · cases h

theorem freeUses_kid {k : Kind} {as : List Attr} {pre post : List Node} {n n' : Node}
    (hf : Fits k n n') (h : freeUses en vn n = 0 → freeUses en vn n' = 0)
    (h0 : freeUses en vn (.mk k as (pre ++ n :: post)) = 0) :
    freeUses en vn (.mk k as (pre ++ n' :: post)) = 0 := by
  rw [freeUses_mk] at h0 ⊢
  split
  · rfl
  · rename_i hc
    rw [if_neg] at h0
    · simp only [freeUsesL_append, freeUsesL_cons] at h0 ⊢
      have := h (by omega)
      omega
    · intro hc'
      apply hc
      simp only [Bool.and_eq_true, List.any_append, List.any_cons, Bool.or_eq_true] at hc' ⊢
      refine ⟨hc'.1, ?_⟩
      rcases hc'.2 with h1 | h1 | h1
      · exact .inl h1
      · obtain ⟨i, hi⟩ := declares_item h1
        rw [hf.1 hc'.1 i hi]
        exact .inr (.inl h1)
      · exact .inr (.inr h1)

theorem freeUses_enum (cx : Cx) : freeUses en vn cx.buildEnum = 0 := by
  simp [Cx.buildEnum, freeUses_plain (show (Kind.sItem _).isBlockLike = false from rfl), isUse]

theorem declares_enum {cx : Cx} : declares en vn cx.buildEnum = true ↔ ¬ Other en vn cx := by
  simp only [Cx.buildEnum, declares, List.map_map, Other]
  simp only [show ((fun x : Ident × Ident => x.1) ∘ fun v : Ident => (v, v)) = id from rfl,
      List.map_id]
  by_cases h : cx.ident = en
  · simp [h]
  · simp [h, Ne.symm h]

end

theorem T.scope {env : Env} {b : Bool} {cx cx' : Cx} {n n' : Node} (h : T env b cx n cx' n')
    (he : cx'.errs = []) (en vn : Ident) (ho : b = false → Other en vn cx')
    (h0 : freeUses en vn n = 0) : freeUses en vn n' = 0 := by
  induction h with
  | refl => exact h0
  | trans h1 h2 ih1 ih2 =>
    have g := h2.grows'
    exact ih2 he ho (ih1 (errs_nil_of_prefix h2.errs_mono he) (fun hb => (ho hb).mono g.1 g.2) h0)
  | book => exact h0
  | kid _ hf _ ih => exact freeUses_kid hf (ih he ho) h0
  | wrapVal hv hk =>
    rename_i k cx as e rest
    have hb : k.isBlockLike = false := by rcases hk with rfl | ⟨l, rfl⟩ <;> rfl
    rw [freeUses_plain hb, freeUsesL_cons] at h0 ⊢
    rw [Cx.nextExpr, freeUses_next (ho rfl)]; exact h0
  | wrapArm _ _ =>
    rw [freeUses_plain rfl, freeUsesL_append, freeUsesL_cons] at h0 ⊢
    rw [Cx.nextExpr, freeUses_next (ho rfl)]; exact h0
  | wrapBlock hv hk =>
    rename_i k cx as ss
    have hb : k.isBlockLike = true := by rcases hk with rfl | ⟨l, rfl⟩ <;> rfl
    have hu : isUse en vn (k, as) = 0 := by rcases hk with rfl | ⟨l, rfl⟩ <;> rfl
    rw [freeUses_mk]
    split
    · rfl
    · simp only [freeUsesL_cons, freeUsesL_nil, tailS,
        freeUses_plain (show (Kind.sExpr false).isBlockLike = false from rfl)]
      rw [Cx.nextExpr, freeUses_next (ho rfl)]
      rw [freeUses_mk, hb, hu] at h0
      rw [exprBlock, freeUses_mk, hu]
      simp only [isUse, Kind.isBlockLike]
      simp only [Bool.true_and] at h0 ⊢
      omega
  | fill hv hk =>
    rename_i k cx as
    have hb : k.isBlockLike = false := by rcases hk with rfl | ⟨l, rfl⟩ <;> rfl
    rw [freeUses_plain hb] at h0 ⊢
    rw [freeUsesL_cons, Cx.nextExpr, freeUses_next (ho rfl)]
    have : freeUses en vn unitE = 0 := by
      rw [unitE, freeUses_plain rfl]; rfl
    rw [this]
    simpa using h0
  | marker =>
    rw [freeUses_next (ho rfl)]
    rw [freeUses_plain rfl] at h0
    simp only [freeUsesL_cons, freeUsesL_nil] at h0
    omega
  | tryOp =>
    rw [freeUses_plain rfl] at h0 ⊢
    simp only [freeUsesL_cons, freeUsesL_nil, tryArms, exprBlock, semiS, pathE,
      freeUses_plain (show (Kind.arm _).isBlockLike = false from rfl),
      freeUses_plain (show (Kind.sExpr _).isBlockLike = false from rfl),
      freeUses_plain (show Kind.eReturn.isBlockLike = false from rfl),
      freeUses_plain (show Kind.eCall.isBlockLike = false from rfl),
      freeUses_plain (show (Kind.ePath _ _).isBlockLike = false from rfl), isUse_core,
      isUse_ident] at h0 ⊢
    rw [freeUses_mk]
    simp only [List.any_cons, List.any_nil, declares, Bool.or_false, Bool.and_false,
      Bool.false_eq_true, if_false, freeUsesL_cons, freeUsesL_nil,
      freeUses_plain (show (Kind.sExpr _).isBlockLike = false from rfl),
      freeUses_plain (show Kind.eReturn.isBlockLike = false from rfl),
      freeUses_plain (show Kind.eCall.isBlockLike = false from rfl),
      freeUses_plain (show (Kind.ePath _ _).isBlockLike = false from rfl), isUse_core]
    have h1 := freeUses_next (ho rfl)
    simp only [Cx.nextExpr, pathE] at h1 ⊢
    rw [h1]
    simp only [freeUses_plain (show (Kind.ePath _ _).isBlockLike = false from rfl), isUse_ident,
      freeUsesL_nil]
    simp only [isUse] at h0 ⊢
    omega
  | dropAttr _ hf => rw [freeUses_findRemove hf]; exact h0
  | unmark _ hne => exact absurd he hne
  | badMark => simp [Cx.error] at he
  | dropRec => simp [Cx.error] at he
  | child _ hf _ hnew h1 h2 heq ih1 ih2 =>
    have hb := join_core heq
    obtain ⟨e2, ech⟩ := join_nil heq he
    refine ih2 ech (by simp) (ih1 e2 (fun _ => ?_) (by rw [freeUses_findRemove hf]; exact h0))
    exact (ho rfl).mono hb.ident (by rw [hb.variants]; exact List.prefix_refl _)
  | exPlain h1 hv ih => exact ih he (fun _ _ => by simp [hv]) h0
  | exErr _ hne _ => exact absurd he hne
  | exTwo => simp [Cx.error] at he
  | exExpr h1 _ ih =>
    rw [buildExpr, exprBlock, freeUses_mk]
    split
    · rfl
    · rename_i cx _ cx' _ _ hd
      have ho : Other en vn cx' := by
        apply Classical.byContradiction
        intro hh
        exact hd (by simp [Kind.isBlockLike, declares_enum.mpr hh])
      have := ih he (fun _ => ho) h0
      simp [tailS, freeUses_plain (show (Kind.sExpr _).isBlockLike = false from rfl), isUse, this,
        freeUses_enum]
  | exKid hk ht ih =>
    rename_i k _ _ _ _ _ _
    have hb : k.isBlockLike = false := by rcases hk with ⟨b, rfl⟩ | ⟨l, rfl⟩ <;> rfl
    rw [freeUses_plain hb, freeUsesL_cons] at h0 ⊢
    have := ih he (by simp) (by omega)
    omega
  | exPat hp _ ih =>
    refine ih he (by simp) ?_
    rw [freeUses_plain rfl] at h0 ⊢
    exact h0
  | exFn h1 _ ih =>
    rename_i cx n cx' name ret as asb ss hlen
    rw [freeUses_plain rfl, freeUsesL_cons, freeUses_mk]
    by_cases ho : Other en vn cx'
    · have := ih he (fun _ => ho) h0
      rw [freeUses_plain rfl, freeUsesL_cons, freeUses_mk] at this
      simp only [freeUsesL_nil, freeUsesL_cons, freeUses_enum, List.any_cons, isUse] at this ⊢
      have hd : declares en vn cx'.buildEnum = false :=
        Bool.eq_false_iff.mpr fun hd => declares_enum.mp hd ho
      simpa [hd] using this
    · simp [Kind.isBlockLike, declares_enum.mpr ho, isUse]
  | exSetup hs _ ih => exact ih he ho h0

end AutoEnums
