import Verif.TraceVisit
import Verif.Lemmas.Tree

/-! # The balance of constructors and declarations (for C01) -/

namespace AutoEnums

open Spec

/-- Constructors already used by the context but not yet declared. -/
def pending (en vn : Ident) (cx : Cx) : Nat :=
  if cx.ident = en then cx.variants.count vn else 0

theorem pending_zero {en vn : Ident} {cx : Cx} (h : cx.variants = []) : pending en vn cx = 0 := by
  unfold pending; rw [h]; simp

theorem ofIdents2 (a b : Ident) : Path.ofIdents [a, b] = variantPath a b := rfl

theorem pending_book {en vn : Ident} {a b : Cx} (h : Core a b) :
    pending en vn b = pending en vn a := by
  unfold pending; rw [h.ident, h.variants]

theorem variantPath_inj {a b c d : Ident} :
    variantPath a b = variantPath c d ↔ a = c ∧ b = d := by
  simp [variantPath]

theorem pending_next (en vn : Ident) (cx : Cx) (as : List Attr) (e : Node) :
    pending en vn (cx.nextExprAttrs as e).1 = pending en vn cx +
      isUse en vn (.ePath false (variantPath cx.ident (variantIdent cx.variants.length)), []) := by
  simp only [pending, Cx.nextExprAttrs, isUse, variantPath_inj]
  by_cases h : cx.ident = en
  · by_cases h2 : variantIdent cx.variants.length = vn <;>
      simp [h, h2, List.count_append]
  · simp [h]

theorem weigh_next (w : Label → Nat) (cx : Cx) (as : List Attr) (e : Node) :
    weigh w (cx.nextExprAttrs as e).2 = w (.eCall, as) +
      w (.ePath false (variantPath cx.ident (variantIdent cx.variants.length)), []) +
      weigh w e := by
  simp [Cx.nextExprAttrs, exprCall, pathE, ofIdents2]; omega

theorem weigh_findRemove {w : Label → Nat} (hw : ∀ k as as', w (k, as) = w (k, as')) {n n' : Node}
    {s : String} {a : Attr} (h : n.findRemoveAttr s = some (a, n')) : weigh w n' = weigh w n := by
  obtain ⟨_, _, _, l1, l2, h1, h2⟩ := Node.findRemoveAttr_some h
  cases n with
  | mk k as ks =>
    simp only [Node.kind, Node.kids, Node.rawAttrs] at h1 h2
    subst h1 h2
    simp [hw k (l1 ++ l2) (l1 ++ a :: l2)]

theorem isUse_attrs (en vn : Ident) (k : Kind) (as as' : List Attr) :
    isUse en vn (k, as) = isUse en vn (k, as') := by
  cases k <;> try rfl
  rename_i q p
  cases q <;> rfl

theorem isDecl_attrs (en vn : Ident) (k : Kind) (as as' : List Attr) :
    isDecl en vn (k, as) = isDecl en vn (k, as') := by
  cases k <;> try rfl
  rename_i i
  cases i <;> rfl

theorem isUse_core (en vn : Ident) (as : List Attr) : isUse en vn (.ePath false
    ⟨true, [⟨"core", none⟩, ⟨"result", none⟩, ⟨"Result", none⟩, ⟨"Err", none⟩]⟩, as) = 0 := by
  simp [isUse, variantPath]

theorem isUse_ident (en vn : Ident) (s : String) (as : List Attr) : isUse en vn (.ePath false
    (.ofIdents [s]), as) = 0 := by
  simp [isUse, variantPath, Path.ofIdents]

theorem uses_eq (en vn : Ident) (n : Node) : uses en vn n = weigh (isUse en vn) n := rfl
theorem decls_eq (en vn : Ident) (n : Node) : decls en vn n = weigh (isDecl en vn) n := rfl

theorem errs_nil_of_prefix {a b : List Err} (h : a <+: b) (hb : b = []) : a = [] := by
  subst hb; exact List.prefix_nil.mp h

/-- The balance of a trace. -/
theorem T.balance {env : Env} {b : Bool} {cx cx' : Cx} {n n' : Node} (h : T env b cx n cx' n')
    (he : cx'.errs = []) (en vn : Ident) :
    uses en vn n' + decls en vn n + pending en vn cx =
      uses en vn n + decls en vn n' + (if b then 0 else pending en vn cx') := by
  induction h with
  | refl => simp
  | trans h1 h2 ih1 ih2 =>
    have := ih2 he
    have := ih1 (errs_nil_of_prefix h2.errs_mono he)
    simp only [Bool.false_eq_true, if_false] at *
    omega
  | book h => simp [pending_book h.toCore]
  | kid _ _ _ ih =>
    have := ih he
    simp only [Bool.false_eq_true, if_false, uses_eq, decls_eq, weigh_mk, weighL_append,
      weighL_cons] at *
    omega
  | wrapVal _ _ =>
    simp only [Bool.false_eq_true, if_false, uses_eq, decls_eq, Cx.nextExpr, weigh_next,
      pending_next, weigh_mk, weighL_cons]
    simp [isUse, isDecl]; omega
  | wrapArm _ _ =>
    simp only [Bool.false_eq_true, if_false, uses_eq, decls_eq, Cx.nextExpr, weigh_next,
      pending_next, weigh_mk, weighL_append, weighL_cons]
    simp [isUse, isDecl]; omega
  | wrapBlock hv hk =>
    rename_i k cx as ss
    have h1 : isUse en vn (k, as) = 0 := by rcases hk with rfl | ⟨l, rfl⟩ <;> rfl
    have h2 : isDecl en vn (k, as) = 0 := by rcases hk with rfl | ⟨l, rfl⟩ <;> rfl
    simp only [Bool.false_eq_true, if_false, uses_eq, decls_eq, Cx.nextExpr, weigh_next,
      pending_next, tailS, weigh_mk, weighL_cons, weighL_nil, exprBlock, h1, h2]
    simp [isUse, isDecl]; omega
  | fill hv hk =>
    rename_i k cx as
    have h1 : isUse en vn (k, as) = 0 := by rcases hk with rfl | ⟨l, rfl⟩ <;> rfl
    have h2 : isDecl en vn (k, as) = 0 := by rcases hk with rfl | ⟨l, rfl⟩ <;> rfl
    simp only [Bool.false_eq_true, if_false, uses_eq, decls_eq, Cx.nextExpr, weigh_next,
      pending_next, unitE, weigh_mk, weighL_cons, weighL_nil, h1, h2]
    simp [isUse, isDecl]; omega
  | marker =>
    simp only [Bool.false_eq_true, if_false, uses_eq, decls_eq, weigh_next,
      pending_next, weigh_mk, weighL_cons, weighL_nil]
    simp [isUse, isDecl]; omega
  | tryOp =>
    simp only [Bool.false_eq_true, if_false, uses_eq, decls_eq, Cx.nextExpr, weigh_next,
      pending_next, weigh_mk, weighL_cons, weighL_nil, weighL_append, tryArms, pathE, exprBlock,
      semiS, isUse_core, isUse_ident]
    simp [isUse, isDecl]; omega
  | dropAttr _ hf =>
    simp [uses_eq, decls_eq, weigh_findRemove (isUse_attrs en vn) hf,
      weigh_findRemove (isDecl_attrs en vn) hf]
  | unmark _ hne => exact absurd he hne
  | badMark => simp [Cx.error] at he
  | dropRec => simp [Cx.error] at he
  | child _ hf _ hnew h1 h2 heq ih1 ih2 =>
    have hb := join_core heq
    obtain ⟨e2, ech⟩ := join_nil heq he
    have := ih1 e2
    have := ih2 ech
    rw [pending_zero (new_fresh hnew).variants] at this
    simp only [uses_eq, decls_eq, weigh_findRemove (isUse_attrs en vn) hf,
      weigh_findRemove (isDecl_attrs en vn) hf, pending_book hb] at *
    simp only [Bool.false_eq_true, if_false, if_true] at *
    omega
  | exPlain h1 hv ih =>
    have := ih he
    simp only [Bool.false_eq_true, if_false, if_true, pending_zero hv] at *
    omega
  | exErr _ hne _ => exact absurd he hne
  | exTwo => simp [Cx.error] at he
  | exExpr h1 _ ih =>
    have := ih he
    simp only [Bool.false_eq_true, if_false, if_true, uses_eq, decls_eq, buildExpr, exprBlock,
      tailS, Cx.buildEnum, weigh_mk, weighL_cons, weighL_nil] at *
    simp only [isUse, isDecl, List.map_map, pending] at *
    simp only [show ((fun x : Ident × Ident => x.1) ∘ fun v : Ident => (v, v)) = id from rfl,
      List.map_id] at *
    omega
  | exKid _ _ ih =>
    have := ih he
    simp only [if_true, uses_eq, decls_eq, weigh_mk, weighL_cons] at *
    omega
  | exPat hp _ ih =>
    have := ih he
    simp only [if_true, uses_eq, decls_eq, weigh_mk] at *
    simp only [isUse, isDecl] at *
    omega
  | exFn h1 _ ih =>
    have := ih he
    simp only [Bool.false_eq_true, if_false, if_true, uses_eq, decls_eq,
      Cx.buildEnum, weigh_mk, weighL_cons, weighL_nil] at *
    simp only [isUse, isDecl, List.map_map, pending] at *
    simp only [show ((fun x : Ident × Ident => x.1) ∘ fun v : Ident => (v, v)) = id from rfl,
      List.map_id] at *
    omega
  | exSetup hs _ ih =>
    have := ih he
    simp only [if_true, pending, hs.ident, hs.variants] at *
    exact this

end AutoEnums
