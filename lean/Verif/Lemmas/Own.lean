import Verif.Lemmas.Converge
import Verif.Lemmas.Pend
import Verif.Spec.Whole

/-! # The constructors an attribute without inner attributes introduces -/

namespace AutoEnums

open Spec

theorem isCtor_attrs (en : Ident) (k : Kind) (as as' : List Attr) :
    isCtor en (k, as) = isCtor en (k, as') := by
  unfold isCtor
  split
  · rename_i heq; cases heq; rfl
  · rename_i hne
    split
    · rename_i heq; cases heq; exact absurd rfl (hne _ _ _)
    · rfl

theorem isCtor_variant (en v : Ident) (as : List Attr) :
    isCtor en (.ePath false (variantPath en v), as) = 1 := by
  simp [isCtor, variantPath]

theorem ctors_next (cx : Cx) (as : List Attr) (e : Node) :
    weigh (isCtor cx.ident) (cx.nextExprAttrs as e).2 = weigh (isCtor cx.ident) e + 1 := by
  rw [weigh_next]
  have h : isCtor cx.ident (.eCall, as) = 0 := rfl
  first
    | rw [isCtor_variant, h]; omega
    | (rw [isCtor_variant]; simp [h]; omega)

/-- What a context without inner attributes does. -/
structure Own (cx : Cx) (n : Node) (cx' : Cx) (n' : Node) : Prop where
  ident : cx'.ident = cx.ident
  two : ∀ e ∈ cx'.errs, e.isTwo = true → e ∈ cx.errs
  count : cx'.errs = [] → ctors cx.ident n' + cx.variants.length =
    ctors cx.ident n + cx'.variants.length
  names : cx.variants = variantNames cx.variants.length →
    cx'.variants = variantNames cx'.variants.length

theorem names_next {cx : Cx} (as : List Attr) (e : Node)
    (h : cx.variants = variantNames cx.variants.length) :
    (cx.nextExprAttrs as e).1.variants =
      variantNames (cx.nextExprAttrs as e).1.variants.length := by
  simp only [Cx.nextExprAttrs, List.length_append, List.length_singleton, variantNames,
    List.range_succ, List.map_append, List.map_cons, List.map_nil]
  rw [← variantNames, ← h]
  rfl

theorem Own.next {cx : Cx} {n n' : Node} (as : List Attr) (e : Node)
    (h : ctors cx.ident n' = ctors cx.ident n + 1) : Own cx n (cx.nextExprAttrs as e).1 n' :=
  ⟨rfl, fun _ h _ => h, fun _ => by simp [Cx.nextExprAttrs]; omega, names_next as e⟩

theorem T.own {env : Env} {b : Bool} {cx cx' : Cx} {n n' : Node} (h : T env b cx n cx' n')
    (hb : b = false) (hn : AutoEnums.names n = 0) : Own cx n cx' n' := by
  induction h with
  | refl => exact ⟨rfl, fun _ h _ => h, fun _ => rfl, id⟩
  | trans h1 h2 ih1 ih2 =>
    have i1 := ih1 rfl hn
    have i2 := ih2 rfl (by have := h1.names_le; omega)
    refine ⟨i2.ident.trans i1.ident, fun e h h' => i1.two e (i2.two e h h') h', fun h => ?_,
      fun h => i2.names (i1.names h)⟩
    have a1 := i1.count (errs_nil_of_prefix h2.errs_mono h)
    have a2 := i2.count h
    rw [i1.ident] at a2
    omega
  | book hbk => 
    exact ⟨hbk.ident, hbk.two, fun _ => by rw [hbk.variants], fun h => by rw [hbk.variants]; exact h⟩
  | kid _ _ _ ih =>
    rename_i pre n n' post cx cx' _ as
    have i := ih rfl (by simp [AutoEnums.names] at hn ⊢; omega)
    refine ⟨i.ident, i.two, fun h => ?_, i.names⟩
    have := i.count h
    simp only [ctors, weigh_mk, weighL_append, weighL_cons] at *
    omega
  | wrapVal _ _ =>
    refine .next _ _ ?_
    simp only [ctors, Cx.nextExpr, weigh_mk, weighL_cons, ctors_next]
    omega
  | wrapArm _ _ =>
    refine .next _ _ ?_
    simp only [ctors, Cx.nextExpr, weigh_mk, weighL_cons, weighL_append, ctors_next]
    omega
  | wrapBlock hv hk =>
    rename_i k cx as ss
    refine .next _ _ ?_
    have h1 : isCtor cx.ident (k, as) = 0 := by rcases hk with rfl | ⟨l, rfl⟩ <;> rfl
    simp only [ctors, Cx.nextExpr, weigh_mk, weighL_cons, weighL_nil, ctors_next, tailS, exprBlock, h1]
    simp [isCtor]
  | fill hv hk =>
    rename_i k cx as
    refine .next _ _ ?_
    have h1 : isCtor cx.ident (k, as) = 0 := by rcases hk with rfl | ⟨l, rfl⟩ <;> rfl
    simp only [ctors, Cx.nextExpr, weigh_mk, weighL_cons, weighL_nil, ctors_next, unitE, h1]
    simp [isCtor]
  | marker =>
    refine .next _ _ ?_
    simp only [ctors, weigh_mk, weighL_cons, weighL_nil, ctors_next]
    simp [isCtor]
  | tryOp =>
    refine .next _ _ ?_
    simp only [ctors, Cx.nextExpr, weigh_mk, weighL_cons, weighL_nil, ctors_next,
      tryArms, pathE, exprBlock, semiS]
    simp [isCtor, Path.ofIdents]
  | dropAttr _ hf =>
    exact ⟨rfl, fun _ h _ => h, fun _ => by
      simp [ctors, weigh_findRemove (isCtor_attrs _) hf], id⟩
  | unmark _ hne => exact ⟨rfl, fun _ h _ => h, fun h => absurd h hne, id⟩
  | badMark => exact ⟨rfl, (Book.error _ _).two, fun h => by simp [Cx.error] at h, id⟩
  | dropRec hf => exact ⟨rfl, (Book.error _ _).two, fun h => by simp [Cx.error] at h, id⟩
  | child _ hf =>
    have := (names_remove hf).2.2.1 rfl
    omega
  | exPlain => cases hb
  | exErr => cases hb
  | exTwo => cases hb
  | exExpr => cases hb
  | exKid => cases hb
  | exPat => cases hb
  | exFn => cases hb
  | exSetup => cases hb

/-! ## Trees equal up to the names of variants -/

theorem isCtor_blur (en : Ident) (k : Kind) (as : List Attr) :
    isCtor en (blurK en k, as) = isCtor en (k, as) := by
  unfold blurK
  split
  · rename_i e v
    split
    · rename_i h; subst h; simp [isCtor, variantPath]
    · rfl
  · rfl

theorem ctors_blur (en : Ident) : ∀ n, ctors en (blur en n) = ctors en n := by
  intro n
  induction n using Node.ind with
  | h k as ks ih =>
    have hl : ∀ l : List Node, (∀ c ∈ l, c ∈ ks) →
        weighL (isCtor en) (blurL en l) = weighL (isCtor en) l := by
      intro l
      induction l with
      | nil => intro _; rw [blurL]
      | cons a l ihl =>
        intro hm
        rw [blurL, weighL_cons, weighL_cons, ihl fun c hc => hm c (by simp [hc])]
        have := ih a (hm a (by simp))
        simp only [ctors] at this
        rw [this]
    rw [blur]
    simp only [ctors, weigh_mk, isCtor_blur]
    rw [hl ks fun _ h => h]

theorem Spec.Alike.ctors {en : Ident} {a b : Node} (h : Alike en a b) : ctors en a = ctors en b := by
  rw [← ctors_blur en a, ← ctors_blur en b, h]

end AutoEnums
