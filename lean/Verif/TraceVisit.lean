import Verif.Trace

/-!
# Every expansion is a trace
-/

namespace AutoEnums

variable {env : Env}

/-- A mode other than the default is only ever chosen when branches are analysed. -/
def Inv (cx : Cx) : Prop := cx.mode ≠ .default → cx.lastMode ≠ .never

theorem inv_modeOnly : T.ModeOnly Inv := by
  intro a b h1 h2 h
  unfold Inv at *
  rw [h1, h2]; exact h

theorem Book.inv {a b : Cx} (h : Book a b) : Inv a → Inv b := inv_modeOnly h.mode h.lastMode

theorem T.inv (h : T env false cx n cx' n') : Inv cx → Inv cx' :=
  inv_modeOnly h.modes.1 h.modes.2

/-- What is assumed of the recursive visit. -/
structure GoodRec (env : Env) (rec : Rec) : Prop where
  tr : ∀ vk sc cx n, Inv cx → T env false cx n (rec vk sc cx n).1 (rec vk sc cx n).2
  item : ∀ vk sc cx n i, n.kind = .sItem i → (rec vk sc cx n).2 = n
  dummy : ∀ sc cx n, (rec .dummy sc cx n).1.variants = cx.variants
  else_ : ∀ vk sc cx n, n.kind.isElse = true → (rec vk sc cx n).2.kind.isElse = true
  block : ∀ vk sc cx as ss, ∃ ss', (rec vk sc cx (.mk .block as ss)).2 = .mk .block as ss'

/-! ## Attribute helpers -/

theorem findRemove_some {α : Type} {p : α → Bool} : ∀ {l : List α} {a : α} {l' : List α},
    findRemove p l = some (a, l') →
      p a = true ∧ ∃ l1 l2, l = l1 ++ a :: l2 ∧ l' = l1 ++ l2 ∧ ∀ x ∈ l1, p x = false := by
  intro l
  induction l with
  | nil => intro a l' h; simp [findRemove] at h
  | cons b l ih =>
    intro a l' h
    simp only [findRemove] at h
    split at h
    · rename_i hb
      simp only [Option.some.injEq, Prod.mk.injEq] at h
      obtain ⟨rfl, rfl⟩ := h
      exact ⟨hb, [], l, rfl, rfl, by simp⟩
    · rename_i hb
      split at h
      · rename_i c cs hc
        simp only [Option.some.injEq, Prod.mk.injEq] at h
        obtain ⟨rfl, rfl⟩ := h
        obtain ⟨h1, l1, l2, rfl, rfl, h2⟩ := ih hc
        refine ⟨h1, b :: l1, l2, rfl, rfl, ?_⟩
        intro x hx
        cases hx with
        | head => simpa using hb
        | tail _ hx => exact h2 x hx
      · exact absurd h (by simp)

theorem findRemove_none {α : Type} {p : α → Bool} : ∀ {l : List α},
    findRemove p l = none ↔ l.any p = false := by
  intro l
  induction l with
  | nil => simp [findRemove]
  | cons b l ih =>
    by_cases hb : p b = true
    · simp [findRemove, hb]
    · cases hl : findRemove p l with
      | none => simp only [findRemove, hb, hl]; simpa [hb] using ih.mp hl
      | some r =>
        simp only [findRemove, hb, hl]
        simp only [Bool.false_eq_true, ↓reduceIte, reduceCtorEq, List.any_cons, hb, Bool.false_or,
          false_iff]
        intro h
        have := ih.mpr h
        simp [hl] at this

theorem Node.attrs_eq {k : Kind} (h : k.hasAttrs = true) (as : List Attr) (ks : List Node) :
    (Node.mk k as ks).attrs = as := by
  cases k <;> simp_all [Node.attrs, Kind.hasAttrs]

theorem Node.findRemoveAttr_some {n n' : Node} {s : String} {a : Attr}
    (h : n.findRemoveAttr s = some (a, n')) :
    n.kind.hasAttrs = true ∧ a.is s = true ∧ n.anyAttr s = true ∧
    ∃ l1 l2, n.rawAttrs = l1 ++ a :: l2 ∧ n' = .mk n.kind (l1 ++ l2) n.kids := by
  cases n with
  | mk k as ks =>
    simp only [Node.findRemoveAttr] at h
    split at h
    · rename_i hk
      split at h
      · rename_i b bs hb
        simp only [Option.some.injEq, Prod.mk.injEq] at h
        obtain ⟨rfl, rfl⟩ := h
        obtain ⟨h1, l1, l2, rfl, rfl, h2⟩ := findRemove_some hb
        refine ⟨hk, h1, ?_, l1, l2, rfl, rfl⟩
        simp [Node.anyAttr, Node.attrs_eq hk, AutoEnums.anyAttr, h1]
      · exact absurd h (by simp)
    · exact absurd h (by simp)

theorem Node.findRemoveAttr_none {n : Node} {s : String} (h : n.anyAttr s = false) :
    n.findRemoveAttr s = none := by
  cases hf : n.findRemoveAttr s with
  | none => rfl
  | some r =>
    obtain ⟨a, n'⟩ := r
    have := (Node.findRemoveAttr_some hf).2.2.1
    simp [h] at this

/-! ## `child_expr` keeps kind and attributes of its argument -/

theorem childExpr_top (cx : Cx) (n : Node) :
    (childExpr cx n).2.kind = n.kind ∧ (childExpr cx n).2.rawAttrs = n.rawAttrs := by
  cases n with
  | mk k as ks =>
    unfold childExpr
    split
    · exact ⟨rfl, rfl⟩
    · split <;> first | exact ⟨rfl, rfl⟩ | exact visitIf_top _ _

theorem Node.anyAttr_congr {n n' : Node} {s : String} (hk : n'.kind = n.kind)
    (ha : n'.rawAttrs = n.rawAttrs) (hs : ∀ b, n.kind ≠ .sExpr b) :
    n'.anyAttr s = n.anyAttr s := by
  cases n with
  | mk k as ks =>
    cases n' with
    | mk k' as' ks' =>
      simp only [Node.kind] at hk hs
      simp only [Node.rawAttrs] at ha
      subst hk ha
      have : ∀ ks, (Node.mk k' as' ks).attrs = if k'.hasAttrs then as' else [] := by
        intro ks
        unfold Node.attrs
        split
        · rename_i heq
          exact absurd (Node.mk.inj heq).1 (hs _)
        · rename_i heq
          obtain ⟨rfl, rfl, rfl⟩ := Node.mk.inj heq
          rfl
      simp only [Node.anyAttr, this]

/-! ## The expansion functions -/

section
variable {env : Env} {rec : Rec} (hr : GoodRec env rec)
include hr

theorem walk_tr (vk : VK) (sc : Scope) (cx : Cx) (e : Node) (hi : Inv cx) :
    T env false cx e (walk (rec vk sc) cx e).1 (walk (rec vk sc) cx e).2 :=
  T.walk inv_modeOnly (hr.tr vk sc)
    (fun _ cx n => ⟨fun _ => hr.item vk sc cx n, fun _ => hr.else_ vk sc cx n⟩) cx e hi

theorem dummyExpr_tr (cx : Cx) (e : Node) (hi : Inv cx) :
    T env false cx e (dummyExpr rec cx e).1 (dummyExpr rec cx e).2 :=
  (T.book (.assert cx _ _)).trans (hr.tr _ _ _ _ ((Book.assert cx _ _).inv hi))

theorem dummyExpr_variants (cx : Cx) (e : Node) :
    (dummyExpr rec cx e).1.variants = cx.variants := by
  unfold dummyExpr
  rw [hr.dummy, (Book.assert cx _ _).variants]

theorem mapA_dummy_variants (sc : Scope) : ∀ (ks : List Node) (cx : Cx),
    (mapA (rec .dummy sc) cx ks).1.variants = cx.variants := by
  intro ks
  induction ks with
  | nil => intro cx; rfl
  | cons a l ih => intro cx; simp only [mapA]; rw [ih, hr.dummy]

theorem walk_dummy_variants (sc : Scope) (cx : Cx) (n : Node) :
    (walk (rec .dummy sc) cx n).1.variants = cx.variants := by
  cases n with
  | mk k as ks =>
    simp only [walk]
    split
    · rfl
    · exact mapA_dummy_variants hr sc ks cx

theorem dummyWalk_tr (cx : Cx) (e : Node) (hi : Inv cx) :
    T env false cx e (dummyWalk rec cx e).1 (dummyWalk rec cx e).2 :=
  (T.book (.assert cx _ _)).trans (walk_tr hr _ _ _ _ ((Book.assert cx _ _).inv hi))

theorem dummyWalk_variants (cx : Cx) (e : Node) :
    (dummyWalk rec cx e).1.variants = cx.variants := by
  unfold dummyWalk
  rw [walk_dummy_variants hr, (Book.assert cx _ _).variants]

theorem expandTarget_tr (cx : Cx) (e : Node) (hi : Inv cx) :
    T env false cx e (expandTarget env rec cx e).1 (expandTarget env rec cx e).2 := by
  unfold expandTarget
  have hc := childExpr_tr (env := env)  e cx
  dsimp only
  split
  · exact hc.trans (dummyExpr_tr hr _ _ (hc.inv hi))
  · exact hc.trans (hr.tr _ _ _ _ (hc.inv hi))

omit hr in
theorem inv_default {cx : Cx} (h : cx.mode = .default) : Inv cx := fun hn => absurd h hn

omit hr in
theorem Setup.inv {env : Env} {n : Node} {a b : Cx} (h : Setup env n a b) (hm : a.mode = .default) : Inv b := by
  intro hb
  rcases h.mode with h1 | ⟨_, h2, h3⟩
  · exact absurd (h1.trans hm) hb
  · rw [h3]; exact h2

theorem expandExpr_tr (cx : Cx) (e : Node) (hm : cx.mode = .default) :
    ∃ cx0, Setup env e cx cx0 ∧
      T env false cx0 e (expandExpr env rec cx e).1 (expandExpr env rec cx e).2 := by
  unfold expandExpr
  split
  · split
    · rename_i hv
      refine ⟨_, ?_, T.kid0 rfl (.plain rfl (by simp)) (expandTarget_tr hr _ _ ?_)⟩
      · refine ⟨rfl, rfl, rfl, rfl, rfl, rfl, rfl, .inl rfl, .inr ⟨hm, ?_, rfl⟩, .inl rfl⟩
        intro hn
        simp [Cx.visitLast, hn] at hv
      · intro _ hn
        simp only at hn
        simp [Cx.visitLast, hn] at hv
    · exact ⟨cx, .refl _ _ _, expandTarget_tr hr _ _ (inv_default hm)⟩
  · exact ⟨cx, .refl _ _ _, expandTarget_tr hr _ _ (inv_default hm)⟩

omit hr in
/-- The four results of `Context::build`. -/
theorem build_cases (cx : Cx) :
    (cx.errs ≠ [] ∧ cx.build = (cx, none)) ∨
    (cx.errs = [] ∧ (cx.variants.length = 1 ∨ cx.variants.length = 0 ∧ cx.hasChild = false) ∧
      cx.build = (cx.error (.twoOrMore cx.lastMode (!cx.variants.isEmpty)), none)) ∨
    (cx.errs = [] ∧ cx.variants = [] ∧ cx.hasChild = true ∧ cx.build = (cx, none)) ∨
    (cx.errs = [] ∧ 2 ≤ cx.variants.length ∧ cx.build = (cx, some cx.buildEnum)) := by
  unfold Cx.build
  by_cases he : cx.errs = []
  · by_cases h1 : cx.variants.length = 1 ∨ cx.variants.length = 0 ∧ cx.hasChild = false
    · right; left
      refine ⟨he, h1, ?_⟩
      have h2 : cx.variants.length = 1 ∨ cx.variants.length = 0 ∧ (!cx.hasChild) = true := by
        simpa using h1
      simp only [Cx.hasError, he, List.isEmpty_nil, Bool.not_true, Bool.false_eq_true, if_false,
        if_pos h2]
    · have h2 : ¬(cx.variants.length = 1 ∨ cx.variants.length = 0 ∧ (!cx.hasChild) = true) := by
        simpa using h1
      by_cases h3 : cx.variants = []
      · right; right; left
        refine ⟨he, h3, by simp [h3] at h1; simpa using h1, ?_⟩
        simp only [Cx.hasError, he, List.isEmpty_nil, Bool.not_true, Bool.false_eq_true, if_false,
          if_neg h2]
        simp [h3]
      · right; right; right
        have h4 : cx.variants.length ≠ 0 := by simpa using h3
        refine ⟨he, by omega, ?_⟩
        simp only [Cx.hasError, he, List.isEmpty_nil, Bool.not_true, Bool.false_eq_true, if_false,
          if_neg h2]
        simp [h3]
  · left
    exact ⟨he, by simp [Cx.hasError, he]⟩

omit hr in
/-- Errors are only ever added. -/
theorem T.errs_mono {env : Env} {b : Bool} {cx cx' : Cx} {n n' : Node} (h : T env b cx n cx' n') :
    cx.errs <+: cx'.errs := by
  induction h with
  | refl => exact List.prefix_refl _
  | trans _ _ h1 h2 => exact h1.trans h2
  | book h => exact h.errs
  | kid _ _ _ h => exact h
  | wrapVal => exact List.prefix_refl _
  | wrapArm => exact List.prefix_refl _
  | wrapBlock => exact List.prefix_refl _
  | fill => exact List.prefix_refl _
  | marker => exact List.prefix_refl _
  | tryOp => exact List.prefix_refl _
  | dropAttr => exact List.prefix_refl _
  | unmark => exact List.prefix_refl _
  | badMark => exact (Book.error _ _).errs
  | dropRec => exact (Book.error _ _).errs
  | child he => rw [he]; exact List.nil_prefix
  | exPlain _ _ h => exact h
  | exErr _ _ h => exact h
  | exTwo _ _ _ h => exact h.trans (by simp [Cx.error])
  | exExpr _ _ h => exact h
  | exKid _ _ h => exact h
  | exPat _ _ h => exact h
  | exFn _ _ h => exact h
  | exSetup hb _ h => rw [← hb.errs]; exact h

omit hr in
theorem join_panics {cx2 ch2 cx3 : Cx} (h : cx3 = cx2.joinChild ch2) (hp : cx3.panics = []) :
    cx2.panics = [] := by
  subst h
  unfold Cx.joinChild Cx.assert Cx.panic at hp
  split at hp <;> simp_all

omit hr in
/-- Panics are not lost. -/
theorem T.panics_mono {env : Env} {b : Bool} {cx cx' : Cx} {n n' : Node} (h : T env b cx n cx' n') :
    b = false → cx'.panics = [] → cx.panics = [] := by
  induction h with
  | trans _ _ h1 h2 => exact fun hb hp => h1 hb (h2 hb hp)
  | book h => exact fun _ => h.panics
  | kid _ _ _ h => exact h
  | child _ _ _ _ _ _ hj h => exact fun hb hp => h hb (join_panics hj hp)
  | exPlain | exErr | exTwo | exExpr | exKid | exPat | exFn | exSetup => intro hb; cases hb
  | _ => exact fun _ => id

theorem expandBuild_ex (cx : Cx) (e : Node) (hm : cx.mode = .default) :
    T env true cx e (expandBuild env rec cx e).1 (expandBuild env rec cx e).2 := by
  obtain ⟨cx0, hs, ht⟩ := expandExpr_tr (env := env) hr cx e hm
  refine .exSetup hs ?_
  unfold expandBuild
  rcases build_cases (expandExpr env rec cx e).1 with ⟨he, hb⟩ | ⟨he, hl, hb⟩ | ⟨he, h0, _, hb⟩ |
    ⟨he, h2, hb⟩ <;> simp only [hb]
  · exact .exErr ht he
  · exact .exTwo ht he hl
  · exact .exPlain ht h0
  · exact .exExpr ht h2

/-- A context whose attribute has not been looked at yet. -/
structure Fresh (cx : Cx) : Prop where
  variants : cx.variants = []
  mode : cx.mode = .default
  lastMode : cx.lastMode = .default
  traits : cx.traits = []

omit hr in
theorem semi_setup (cx : Cx) (n : Node) (b : Bool) :
    Setup env n cx (if b then { cx with lastMode := .never } else cx) := by
  split
  · exact ⟨rfl, rfl, rfl, rfl, rfl, rfl, rfl, .inr rfl, .inl rfl, .inl rfl⟩
  · exact .refl _ _ _

omit hr in
theorem semi_mode (cx : Cx) (b : Bool) :
    (if b then { cx with lastMode := .never } else cx).mode = cx.mode := by
  split <;> rfl

theorem expandParentExpr_ex (cx : Cx) (e : Node) (b : Bool) (hf : Fresh cx) :
    T env true cx e (expandParentExpr env rec cx e b).1
      (expandParentExpr env rec cx e b).2 := by
  unfold expandParentExpr
  have hb := semi_setup (env := env) cx e b
  have hm := (semi_mode cx b).trans hf.mode
  refine .exSetup hb ?_
  dsimp only
  generalize (if b then { cx with lastMode := .never } else cx) = cx1 at *
  split
  · exact .exPlain (dummyExpr_tr hr _ _ (inv_default hm))
      (by rw [dummyExpr_variants hr, hb.variants, hf.variants])
  · exact expandBuild_ex hr _ _ hm

omit hr in
theorem localAnalysis_setup (cx : Cx) (p : LetPat) (as : List Attr) (ks : List Node)
    (hf : Fresh cx) :
    Setup env (.mk (.sLocal p) as ks) cx (localAnalysis env cx p).1 ∧
    (localAnalysis env cx p).1.mode = cx.mode ∧ ((localAnalysis env cx p).2 = p ∨
      env.typeAnalysis = true ∧ ∃ s ty, p = .typed s ty ∧ (localAnalysis env cx p).2 = .plain s) := by
  unfold localAnalysis
  split
  · rename_i ht
    split
    · refine ⟨⟨rfl, rfl, rfl, rfl, rfl, rfl, rfl, .inl rfl, .inl rfl, .inr ⟨ht, hf.traits, _, rfl, ?_⟩⟩,
        rfl, ?_⟩
      · simp [Cx.collectImplTrait, hf.traits]
      dsimp only
      split
      · exact .inr ⟨ht, _, _, rfl, rfl⟩
      · exact .inl rfl
    · exact ⟨.refl _ _ _, rfl, .inl rfl⟩
  · exact ⟨.refl _ _ _, rfl, .inl rfl⟩

theorem expandParentLocal_ex (cx : Cx) (p : LetPat) (as : List Attr) (ks : List Node)
    (hf : Fresh cx) :
    T env true cx (.mk (.sLocal p) as ks) (expandParentLocal env rec cx p as ks).1
      (expandParentLocal env rec cx p as ks).2 := by
  unfold expandParentLocal
  obtain ⟨hb, hm, hp⟩ := localAnalysis_setup (env := env) cx p as ks hf
  have hm := hm.trans hf.mode
  refine .exSetup hb (.exPat hp ?_)
  dsimp only
  split
  · exact .exPlain (dummyWalk_tr hr _ _ (inv_default hm))
      (by rw [dummyWalk_variants hr, hb.variants, hf.variants])
  · split
    · exact .exErr (.book (.error _ _)) (by simp [Cx.error])
    · exact .exKid (.inr ⟨_, rfl⟩) (expandBuild_ex hr _ _ hm)

omit hr in
theorem fnAnalysis_setup (cx : Cx) (name : String) (ret : Option Ty) (as : List Attr)
    (ks : List Node) (b : Node) (hf : Fresh cx) :
    Setup env (.mk (.iFn name ret) as ks) cx (fnAnalysis env cx ret b) := by
  unfold fnAnalysis
  have hl : cx.lastMode ≠ .never := by rw [hf.lastMode]; simp
  split
  · exact .refl _ _ _
  · dsimp only
    split
    · rename_i ty ht
      exact ⟨rfl, rfl, rfl, rfl, rfl, rfl, rfl, .inl rfl, .inr ⟨hf.mode, hl, rfl⟩,
        .inr ⟨ht, hf.traits, _, rfl, by simp [Cx.collectImplTrait, hf.traits]⟩⟩
    · exact ⟨rfl, rfl, rfl, rfl, rfl, rfl, rfl, .inl rfl, .inr ⟨hf.mode, hl, rfl⟩, .inl rfl⟩

theorem expandParentFn_ex (cx : Cx) (name : String) (ret : Option Ty) (as asb : List Attr)
    (ss : List Node) (hf : Fresh cx) :
    T env true cx (.mk (.iFn name ret) as [.mk .block asb ss])
      (expandParentFn env rec cx name ret as asb ss).1
      (expandParentFn env rec cx name ret as asb ss).2 := by
  unfold expandParentFn
  have hb := fnAnalysis_setup (env := env) cx name ret as [.mk .block asb ss] (.mk .block asb ss) hf
  refine .exSetup hb ?_
  have hi := hb.inv hf.mode
  generalize fnAnalysis env cx ret (.mk .block asb ss) = cx1 at *
  have hv1 : cx1.variants = [] := by rw [hb.variants, hf.variants]
  dsimp only
  split
  · exact .exPlain (dummyWalk_tr hr _ _ hi) (by rw [dummyWalk_variants hr, hv1])
  · generalize hr1 : (if ss.isEmpty = true then (cx1.error .emptyFn, ss) else childLast cx1 ss) = r
    have h1 : T env false cx1 (.mk (.iFn name ret) as [.mk .block asb ss]) r.1
        (.mk (.iFn name ret) as [.mk .block asb r.2]) := by
      refine T.kid0 rfl (.plain rfl (by simp)) ?_
      subst hr1
      split
      · exact .book (.error _ _)
      · exact childLast_tr (k := .block) rfl asb ss (fun m _ => childExpr_tr m) cx1 ss []
          (fun _ h => h)
    have hi1 := h1.inv hi
    split
    · rename_i hex
      refine .exPlain (h1.trans (dummyWalk_tr hr _ _ hi1)) ?_
      rw [dummyWalk_variants hr]
      unfold Cx.analysisExit at hex
      simp only [Bool.and_eq_true] at hex
      replace hex := hex.2
      split at hex
      · simp only [Bool.and_eq_true] at hex
        simpa using hex.1.2
      · exact absurd hex (by simp)
    · obtain ⟨ss', hss⟩ := hr.block .visitor {} r.1 asb r.2
      have hw : (walk (rec .visitor {}) r.1 (.mk (.iFn name ret) as [.mk .block asb r.2])).2 =
          .mk (.iFn name ret) as [.mk .block asb ss'] := by
        simp [walk, Kind.isOpaque, mapA, hss]
      have ht := h1.trans (walk_tr hr .visitor {} r.1
        (.mk (.iFn name ret) as [.mk .block asb r.2]) hi1)
      rw [hw] at ht ⊢
      generalize (walk (rec .visitor {}) r.1 (.mk (.iFn name ret) as [.mk .block asb r.2])).1 = cx2
        at *
      rcases build_cases cx2 with ⟨he, hbd⟩ | ⟨he, hl, hbd⟩ | ⟨he, h0, _, hbd⟩ | ⟨he, h2, hbd⟩ <;>
        simp only [hbd]
      · exact .exErr ht he
      · exact .exTwo ht he hl
      · exact .exPlain ht h0
      · exact .exFn ht h2

theorem expandParentStmt_ex (cx : Cx) (n : Node) (hf : Fresh cx) :
    T env true cx n (expandParentStmt env rec cx n).1
      (expandParentStmt env rec cx n).2 := by
  unfold expandParentStmt
  split
  · exact .exKid (.inl ⟨_, rfl⟩) (expandParentExpr_ex hr _ _ _ hf)
  · exact expandParentLocal_ex hr _ _ _ _ hf
  · exact expandParentFn_ex hr _ _ _ _ _ _ hf
  · exact .exErr (.book (.error _ _)) (by simp [Cx.error])
  · exact .exPlain .refl hf.variants

/-! ## The visitors -/

omit hr in
theorem makeChild_book (cx : Cx) (h : Nat) (toks : List Tok) (he : cx.errs = []) :
    Book cx (cx.makeChild h toks).1 := by
  unfold Cx.makeChild Cx.assert Cx.panic
  split <;> exact ⟨⟨rfl, rfl, rfl, rfl, rfl, rfl, rfl, rfl, by simp [he]⟩, by simp [he], by simp,
    by simp⟩

omit hr in
theorem parseArgs_two {toks : List Tok} {e : Err} (h : parseArgs toks = .error e) :
    e.isTwo = false := by
  have loop : ∀ n toks acc m, parseArgsLoop n toks acc m = .error e → e.isTwo = false := by
    intro n
    induction n with
    | zero =>
      intro toks acc m h
      cases toks <;> rw [parseArgsLoop.eq_def] at h <;> cases h
      rfl
    | succ n ih =>
      intro toks acc m h
      rw [parseArgsLoop.eq_def] at h
      repeat' split at h
      all_goals first
        | (cases h; done)
        | (cases h; rfl)
        | (obtain rfl : n = _ := Nat.succ.inj (by assumption); exact ih _ _ _ h)
  exact loop _ _ _ _ h

omit hr in
theorem makeChild_two {cx : Cx} {h : Nat} {toks : List Tok} {e : Err}
    (hm : (cx.makeChild h toks).2 = .error e) : e.isTwo = false := by
  unfold Cx.makeChild at hm
  dsimp only at hm
  unfold Cx.new at hm
  split at hm
  · rename_i hp
    cases hm
    exact parseArgs_two hp
  · dsimp only at hm
    split at hm
    · split at hm <;> cases hm
      rfl
    · cases hm

omit hr in
theorem new_fresh {h : Nat} {toks : List Tok} {root : Bool} {ms : List String} {d : List Err}
    {ch : Cx} (hn : Cx.new h toks root ms d = .ok ch) : Fresh ch := by
  unfold Cx.new at hn
  split at hn
  · cases hn
  · dsimp only at hn
    split at hn
    · split at hn
      · cases hn
      · cases hn; exact ⟨rfl, rfl, rfl, rfl⟩
    · cases hn; exact ⟨rfl, rfl, rfl, rfl⟩

omit hr in
/-- What a new context contains. -/
theorem new_args {h : Nat} {toks : List Tok} {root : Bool} {ms : List String} {d : List Err}
    {ch : Cx} (hn : Cx.new h toks root ms d = .ok ch) :
    ∃ m, parseArgs toks = .ok ⟨ch.args, m⟩ ∧ ch.ident = enumIdent h ∧
      ch.marker = m.getD DEFAULT_MARKER ∧ ch.markers = ms ++ [ch.marker] ∧ ch.root = root ∧
      ch.errs = d ∧ ch.panics = [] ∧ ch.hasChild = false ∧ ∀ i, m = some i → i ∉ ms := by
  unfold Cx.new at hn
  split at hn
  · cases hn
  · rename_i a ha
    obtain ⟨args, m⟩ := a
    dsimp only at hn
    split at hn
    · split at hn
      · cases hn
      · rename_i hc
        cases hn
        refine ⟨_, ha, rfl, rfl, rfl, rfl, rfl, rfl, rfl, ?_⟩
        intro i hi
        cases hi
        simpa using hc
    · cases hn
      exact ⟨_, ha, rfl, rfl, rfl, rfl, rfl, rfl, rfl, by simp⟩

omit hr in
theorem makeChild_ok {cx : Cx} {h : Nat} {toks : List Tok} {ch : Cx} (he : cx.errs = [])
    (hm : (cx.makeChild h toks).2 = .ok ch) :
    ∃ ms, Cx.new h toks false ms [] = .ok ch := by
  unfold Cx.makeChild Cx.assert Cx.panic at hm
  dsimp only at hm
  split at hm <;> (simp only [he] at hm; exact ⟨_, hm⟩)

theorem vsVisitExpr_tr (vk : VK) (sc : Scope) (cx : Cx) (n : Node) (b : Bool)
    (hi : Inv cx) (hne : n.anyAttr NAME = true → cx.errs = []) :
    T env false cx n (vsVisitExpr env rec vk sc cx n b).1
      (vsVisitExpr env rec vk sc cx n b).2 := by
  unfold vsVisitExpr
  split
  · exact walk_tr hr _ _ _ _ hi
  · rename_i attr n1 hf
    have he := hne (Node.findRemoveAttr_some hf).2.2.1
    have hd : T env false cx n cx n1 := .dropAttr (by simp) hf
    split
    · rename_i toks hform
      have hmb := makeChild_book cx (env.hash n1) toks he
      have hw := walk_tr hr vk sc (cx.makeChild (env.hash n1) toks).1 n1 (hmb.inv hi)
      dsimp only
      split
      · rename_i hm
        exact ((hd.trans (.book hmb)).trans hw).trans (.book (.error _ _ (makeChild_two hm)))
      · rename_i ch hm
        obtain ⟨ms, hn⟩ := makeChild_ok he hm
        refine .child he hf (.inl hform) hn ((T.book hmb).trans hw)
          (expandParentExpr_ex hr _ _ _ (new_fresh hn)) rfl
    · exact (hd.trans (walk_tr hr _ _ _ _ hi)).trans (.book (.error _ _))

omit hr in
theorem findRemoveAttrs_tr (sc : Scope) (cx : Cx) (n : Node) :
    T env false cx n (findRemoveAttrs sc cx n).1 (findRemoveAttrs sc cx n).2 := by
  unfold findRemoveAttrs
  split
  · exact .refl
  · extract_lets r
    have h1 : T env false cx n r.1 r.2 := by
      unfold r
      split
      · rename_i a n1 hf
        refine T.trans (.dropAttr (by simp) hf) (.book ?_)
        dsimp only
        split
        · exact .refl _
        · exact .error _ _
      · exact .refl
    split
    · rename_i hf
      exact h1.trans (.dropRec hf)
    · exact h1

omit hr in
theorem visitNested_tr (sc : Scope) (cx : Cx) (n : Node) (a : Attr) :
    T env false cx n (visitNested sc cx n a).1 (visitNested sc cx n a).2 := by
  unfold visitNested
  refine T.trans (.book (.assert cx (!sc.foreign) .nestedForeign)) ?_
  dsimp only
  split
  · exact childExpr_tr _ _
  · exact .book (.error _ _)

theorem visitLocal_tr (vk : VK) (sc : Scope) (cx : Cx) (n : Node) (hi : Inv cx) :
    T env false cx n (visitLocal rec vk sc cx n).1 (visitLocal rec vk sc cx n).2 := by
  unfold visitLocal
  split
  · exact walk_tr hr _ _ _ _ hi
  · split
    · exact .refl
    · extract_lets r w
      have h1 : T env false cx n r.1 r.2 := by
        unfold r
        split
        · exact .refl
        · split
          · rename_i hf
            exact T.trans (.dropAttr (by simp) hf) (T.kid0 rfl (.plain rfl (by simp)) (visitNested_tr _ _ _ _))
          · rename_i hf
            exact .dropAttr (by simp) hf
          · exact .refl
      exact (h1.trans (walk_tr hr _ _ _ _ (h1.inv hi))).trans (findRemoveAttrs_tr _ _ _)

theorem vsVisitStmt_tr (vk : VK) (sc : Scope) (cx : Cx) (n : Node) (hi : Inv cx)
    (he : cx.errs = []) :
    T env false cx n (vsVisitStmt env rec vk sc cx n).1
      (vsVisitStmt env rec vk sc cx n).2 := by
  unfold vsVisitStmt
  split
  · exact T.kid0 rfl (.plain rfl (by simp)) (vsVisitExpr_tr hr _ _ _ _ _ hi (fun _ => he))
  · split
    · exact visitLocal_tr hr _ _ _ _ hi
    · rename_i attr n1 hf
      have hd : T env false cx _ cx n1 := .dropAttr (s := NAME) (by simp) hf
      split
      · rename_i toks htoks
        have hform : attr.form = .list toks ∨ attr.form = .path ∧ toks = [] := by
          split at htoks
          · rename_i h; simp at htoks; exact .inr ⟨h, htoks⟩
          · rename_i h; simp at htoks; subst htoks; exact .inl h
          · cases htoks
        have hmb := makeChild_book cx (env.hash n1) toks he
        have hw := visitLocal_tr hr vk sc (cx.makeChild (env.hash n1) toks).1 n1 (hmb.inv hi)
        dsimp only
        split
        · rename_i hm
          exact ((hd.trans (.book hmb)).trans hw).trans (.book (.error _ _ (makeChild_two hm)))
        · rename_i ch hm
          obtain ⟨ms, hn⟩ := makeChild_ok he hm
          refine .child he hf hform hn ((T.book hmb).trans hw)
            (expandParentStmt_ex hr _ _ (new_fresh hn)) rfl
      · exact (hd.trans (visitLocal_tr hr _ _ _ _ hi)).trans (.book (.error _ _))
  · exact .refl

omit hr in
theorem replaceBoxed_tr {k : Kind} (hk : k = .eReturn ∨ ∃ l, k = .eBreak l) (cx : Cx)
    (as : List Attr) (ks : List Node) (hv : cx.visitLast = true) :
    T env false cx (.mk k as ks) (cx.replaceBoxed ks).1 (.mk k as (cx.replaceBoxed ks).2) := by
  unfold Cx.replaceBoxed
  split
  · exact .fill hv hk
  · split
    · exact .refl
    · have h1 : k.isOpaque = false := by
        rcases hk with rfl | ⟨l, rfl⟩ <;> rfl
      have h2 : k.isBlockLike = false := by
        rcases hk with rfl | ⟨l, rfl⟩ <;> rfl
      exact .wrapVal hv hk

omit hr in
theorem visitMode_tr (sc : Scope) (cx : Cx) (n : Node) (hi : Inv cx) :
    T env false cx n (visitMode sc cx n).1 (visitMode sc cx n).2 := by
  unfold visitMode
  split
  · rename_i hm
    have hv : cx.visitLast = true := by
      have := hi (by rw [hm]; simp)
      simp [Cx.visitLast, hm, this]
    unfold visitReturn
    split
    · split
      · exact replaceBoxed_tr (.inl rfl) _ _ _ hv
      · exact .refl
    · exact .refl
  · rename_i hm
    unfold visitTry
    split
    · split
      · split
        · exact .refl
        · exact .tryOp hm (hi (by rw [hm]; simp))
      · exact .refl
    · exact .refl
  · exact .refl

omit hr in
theorem visitMode_errs (sc : Scope) (cx : Cx) (n : Node) :
    (visitMode sc cx n).1.errs = cx.errs := by
  unfold visitMode visitReturn visitTry Cx.replaceBoxed
  repeat' split
  all_goals rfl

omit hr in
/-- The rewriting of `return`/`?` keeps the attributes and produces an expression with attributes. -/
theorem visitMode_top (sc : Scope) (cx : Cx) (n : Node) :
    (visitMode sc cx n).2.rawAttrs = n.rawAttrs ∧
      ((visitMode sc cx n).2.kind = n.kind ∨
        (n.kind.hasAttrs = true ∧ n.kind = .eTry ∧ (visitMode sc cx n).2.kind = .eMatch)) := by
  unfold visitMode visitReturn visitTry
  repeat' split
  all_goals first
    | exact ⟨rfl, .inl rfl⟩
    | exact ⟨rfl, .inr ⟨rfl, rfl, rfl⟩⟩

omit hr in
theorem isExpr_not_sExpr {k : Kind} (h : k.isExpr = true) : ∀ b, k ≠ .sExpr b := by
  rintro b rfl; simp [Kind.isExpr] at h

omit hr in
theorem visitMode_anyAttr (sc : Scope) (cx : Cx) (n : Node) (s : String)
    (hs : ∀ b, n.kind ≠ .sExpr b) :
    (visitMode sc cx n).2.anyAttr s = n.anyAttr s := by
  obtain ⟨ha, hk | ⟨h1, h2, h3⟩⟩ := visitMode_top sc cx n
  · exact Node.anyAttr_congr hk ha hs
  · generalize (visitMode sc cx n).2 = m at *
    cases n with
    | mk k as ks =>
      cases m with
      | mk k' as' ks' =>
        simp only [Node.kind, Node.rawAttrs] at *
        subst h2 h3 ha
        rfl

omit hr in
theorem visitMarker_tr (sc : Scope) (cx : Cx) (n : Node) :
    T env false cx n (visitMarker sc cx n).1 (visitMarker sc cx n).2 := by
  unfold visitMarker
  have hb := Book.assert cx (!sc.foreign || cx.marker != DEFAULT_MARKER) .markerForeign
  refine T.trans (.book hb) ?_
  dsimp only
  split
  · split
    · rename_i hex
      split
      · split
        · rename_i he
          refine .unmark hex ?_
          intro h
          simp [Cx.hasError, h] at he
        · exact .marker hex
      · exact .badMark hex
    · exact .refl
  · exact .refl

omit hr in
theorem hasError_false {cx : Cx} (h : ¬cx.hasError = true) : cx.errs = [] := by
  simpa [Cx.hasError] using h

omit hr in
/-- The state in which `VisitStmt::visit_expr` is called from `Visitor::visit_expr`. -/
theorem preVisit (sc : Scope) (cx : Cx) (n : Node) (hi : Inv cx) (he : cx.errs = [])
    (hf : n.anyAttr NAME = true → sc.foreign = true) :
    let r := visitMode sc cx n
    let r' := if sc.foreign then r else
      match r.2.findRemoveAttr NESTED with
      | some (a, n) => visitNested sc r.1 n a
      | none => r
    T env false cx n r'.1 r'.2 ∧ (r'.2.anyAttr NAME = true → r'.1.errs = []) := by
  intro r
  have hr1 : T env false cx n r.1 r.2 := visitMode_tr _ _ _ hi
  have hre : r.1.errs = [] := by rw [visitMode_errs, he]
  dsimp only
  split
  · exact ⟨hr1, fun _ => hre⟩
  · rename_i hfo
    have hnn : n.anyAttr NAME = false := by
      cases h : n.anyAttr NAME with
      | false => rfl
      | true => exact absurd (hf h) hfo
    split
    · rename_i a n1 hfr
      refine ⟨(hr1.trans (.dropAttr (by simp) hfr)).trans (visitNested_tr _ _ _ _), ?_⟩
      intro hc
      exfalso
      obtain ⟨hk, _, _, l1, l2, h1, h2⟩ := Node.findRemoveAttr_some hfr
      have hs : ∀ b, n.kind ≠ .sExpr b := by
        intro b hb
        rcases (visitMode_top sc cx n).2 with h | ⟨h, _⟩
        · rw [show r.2.kind = _ from h, hb] at hk
          simp [Kind.hasAttrs] at hk
        · rw [hb] at h
          simp [Kind.hasAttrs] at h
      have hra : r.2.anyAttr NAME = n.anyAttr NAME := visitMode_anyAttr _ _ _ _ hs
      have hn1 : n1.anyAttr NAME = false := by
        rw [hra.symm] at hnn
        rw [h2]
        simp only [Node.anyAttr, Node.attrs_eq hk]
        have hat : r.2.attrs = l1 ++ a :: l2 := by
          rw [← h1]
          cases hr2 : r.2 with
          | mk k as ks =>
            rw [hr2] at hk
            exact Node.attrs_eq hk _ _
        simp only [Node.anyAttr, hat, AutoEnums.anyAttr, List.any_append, List.any_cons] at hnn ⊢
        simp only [Bool.or_eq_false_iff] at hnn ⊢
        exact ⟨hnn.1, hnn.2.2⟩
      have hc2 : (visitNested sc r.1 n1 a).2.anyAttr NAME = n1.anyAttr NAME := by
        unfold visitNested
        dsimp only
        split
        · refine Node.anyAttr_congr (childExpr_top _ _).1 (childExpr_top _ _).2 ?_
          rw [h2]
          rintro b hb
          simp only [Node.kind] at hb hk
          rw [hb] at hk
          simp [Kind.hasAttrs] at hk
        · rfl
      rw [hc2, hn1] at hc
      exact absurd hc (by simp)
    · exact ⟨hr1, fun _ => hre⟩

theorem visitExpr_tr (sc : Scope) (cx : Cx) (n : Node) (b : Bool) (hi : Inv cx)
    (he : cx.errs = []) :
    T env false cx n (visitExpr env rec sc cx n b).1 (visitExpr env rec sc cx n b).2 := by
  unfold visitExpr
  extract_lets cx1 isName sc1 cx2 sc2 r r1 r2
  have hb1 : Book cx cx1 := .assert _ _ _
  have hb2 : Book cx1 cx2 := by
    unfold cx2
    split
    · exact ⟨⟨rfl, rfl, rfl, rfl, rfl, rfl, rfl, rfl, List.prefix_refl _⟩, id, fun _ h _ => h, id⟩
    · exact .refl _
  have he2 : cx2.errs = [] := by
    have : cx2.errs = cx1.errs := by
      unfold cx2; split <;> rfl
    rw [this]
    unfold cx1 Cx.assert Cx.panic
    split <;> exact he
  have hf : n.anyAttr NAME = true → sc2.foreign = true := by
    intro h
    unfold sc2 sc1 isName
    simp only [h, if_true]
    unfold Scope.check
    split <;> rfl
  obtain ⟨ht, hne⟩ := preVisit (env := env) sc2 cx2 n ((hb1.trans hb2).inv hi) he2 hf
  have h1 : T env false cx n r1.1 r1.2 := (T.book (hb1.trans hb2)).trans ht
  have h2 : T env false cx n r2.1 r2.2 := h1.trans (vsVisitExpr_tr hr _ _ _ _ _ (h1.inv hi) hne)
  split
  · exact (h2.trans (visitMarker_tr _ _ _)).trans (findRemoveAttrs_tr _ _ _)
  · exact h2

theorem visitArm_tr (sc : Scope) (cx : Cx) (n : Node) (hi : Inv cx) :
    T env false cx n (visitArm rec sc cx n).1 (visitArm rec sc cx n).2 := by
  unfold visitArm
  split
  · exact .refl
  · extract_lets r w
    have h1 : T env false cx n r.1 r.2 := by
      unfold r
      split
      · exact .refl
      · split
        · rename_i hf
          exact T.trans (.dropAttr (by simp) hf) (T.kid0 rfl (.plain rfl (by simp)) (visitNested_tr _ _ _ _))
        · rename_i hf
          exact T.trans (.dropAttr (by simp) hf) (T.kid1 rfl (.plain rfl (by simp)) (visitNested_tr _ _ _ _))
        · rename_i hf
          exact .dropAttr (by simp) hf
        · exact .refl
    exact (h1.trans (walk_tr hr _ _ _ _ (h1.inv hi))).trans (findRemoveAttrs_tr _ _ _)

omit hr in
theorem hasChild_book (cx : Cx) (b : Bool) :
    Book cx (if b then { cx with hasChild := true } else cx) := by
  split
  · exact ⟨⟨rfl, rfl, rfl, rfl, rfl, rfl, rfl, rfl, List.prefix_refl _⟩, id, fun _ h _ => h, id⟩
  · exact .refl _

omit hr in
theorem hasChild_errs {cx : Cx} (b : Bool) (he : cx.errs = []) :
    (if b then { cx with hasChild := true } else cx).errs = [] := by
  split <;> exact he

theorem visitStmt_tr (sc : Scope) (cx : Cx) (n : Node) (hi : Inv cx) :
    T env false cx n (visitStmt env rec sc cx n).1 (visitStmt env rec sc cx n).2 := by
  unfold visitStmt
  split
  · exact .refl
  · rename_i he
    have he := hasError_false he
    split
    · exact T.kid0 rfl (.plain rfl (by simp)) (visitExpr_tr hr _ _ _ _ hi he)
    · exact (T.book (hasChild_book cx _)).trans
        (vsVisitStmt_tr hr _ _ _ _ ((hasChild_book cx _).inv hi) (hasChild_errs _ he))

theorem visitorStep_tr (sc : Scope) (cx : Cx) (n : Node) (hi : Inv cx) :
    T env false cx n (visitorStep env rec sc cx n).1 (visitorStep env rec sc cx n).2 := by
  unfold visitorStep
  split
  · split
    · exact .refl
    · rename_i he
      exact visitExpr_tr hr _ _ _ _ hi (hasError_false he)
  · split
    · exact visitStmt_tr hr _ _ _ hi
    · split
      · exact visitArm_tr hr _ _ _ hi
      · exact walk_tr hr _ _ _ _ hi

theorem dummyStep_tr (sc : Scope) (cx : Cx) (n : Node) (hi : Inv cx) :
    T env false cx n (dummyStep env rec sc cx n).1 (dummyStep env rec sc cx n).2 := by
  unfold dummyStep
  split
  · split
    · exact .refl
    · rename_i he
      have he := hasError_false he
      exact (T.book (hasChild_book cx _)).trans
        (vsVisitExpr_tr hr _ _ _ _ _ ((hasChild_book cx _).inv hi) (fun _ => hasChild_errs _ he))
  · split
    · split
      · exact .refl
      · rename_i he
        have he := hasError_false he
        exact (T.book (hasChild_book cx _)).trans
          (vsVisitStmt_tr hr _ _ _ _ ((hasChild_book cx _).inv hi) (hasChild_errs _ he))
    · exact walk_tr hr _ _ _ _ hi

omit hr in
theorem makeChild_variants (cx : Cx) (h : Nat) (toks : List Tok) :
    (cx.makeChild h toks).1.variants = cx.variants := by
  unfold Cx.makeChild Cx.assert Cx.panic
  dsimp only
  split <;> rfl

theorem vsVisitExpr_dummy (sc : Scope) (cx : Cx) (n : Node) (b : Bool) :
    (vsVisitExpr env rec .dummy sc cx n b).1.variants = cx.variants := by
  unfold vsVisitExpr
  split
  · exact walk_dummy_variants hr _ _ _
  · split
    · dsimp only
      split
      · exact (walk_dummy_variants hr _ _ _).trans (makeChild_variants _ _ _)
      · exact (join_core rfl).variants.trans
          ((walk_dummy_variants hr _ _ _).trans (makeChild_variants _ _ _))
    · exact walk_dummy_variants hr _ _ _

theorem vsVisitStmt_dummy (sc : Scope) (cx : Cx) (n : Node) :
    (vsVisitStmt env rec .dummy sc cx n).1.variants = cx.variants := by
  unfold vsVisitStmt
  split
  · exact vsVisitExpr_dummy hr _ _ _ _
  · split
    · exact walk_dummy_variants hr _ _ _
    · split
      · dsimp only
        split
        · exact (walk_dummy_variants hr _ _ _).trans (makeChild_variants _ _ _)
        · exact (join_core rfl).variants.trans
            ((walk_dummy_variants hr _ _ _).trans (makeChild_variants _ _ _))
      · exact walk_dummy_variants hr _ _ _
  · rfl

theorem dummyStep_variants (sc : Scope) (cx : Cx) (n : Node) :
    (dummyStep env rec sc cx n).1.variants = cx.variants := by
  unfold dummyStep
  split
  · split
    · rfl
    · exact (vsVisitExpr_dummy hr _ _ _ _).trans (hasChild_book cx _).variants
  · split
    · split
      · rfl
      · exact (vsVisitStmt_dummy hr _ _ _).trans (hasChild_book cx _).variants
    · exact walk_dummy_variants hr _ _ _

end

theorem vsVisitStmt_item {env : Env} {rec : Rec} (vk : VK) (sc : Scope) (cx : Cx) (n : Node)
    (i : ItemK) (h : n.kind = .sItem i) : (vsVisitStmt env rec vk sc cx n).2 = n := by
  cases n with
  | mk k as ks =>
    simp only [Node.kind] at h
    subst h
    rfl

/-! ## What follows `else` -/

theorem walk_kind {σ : Type} (f : σ → Node → σ × Node) (s : σ) (n : Node) :
    (walk f s n).2.kind = n.kind := by
  cases n with
  | mk k as ks => simp only [walk]; split <;> rfl

theorem findRemoveAttr_kind {n n' : Node} {s : String} {a : Attr}
    (h : n.findRemoveAttr s = some (a, n')) : n'.kind = n.kind := by
  obtain ⟨_, _, _, l1, l2, _, h2⟩ := Node.findRemoveAttr_some h
  rw [h2]; rfl

theorem findRemoveAttrs_kind (sc : Scope) (cx : Cx) (n : Node) :
    (findRemoveAttrs sc cx n).2.kind = n.kind := by
  unfold findRemoveAttrs
  split
  · rfl
  · extract_lets r
    have h1 : r.2.kind = n.kind := by
      unfold r
      split
      · rename_i hf; exact findRemoveAttr_kind hf
      · rfl
    split
    · rename_i hf; exact (findRemoveAttr_kind hf).trans h1
    · exact h1

theorem visitNested_kind (sc : Scope) (cx : Cx) (n : Node) (a : Attr) :
    (visitNested sc cx n a).2.kind = n.kind := by
  unfold visitNested
  dsimp only
  split
  · exact (childExpr_top _ _).1
  · rfl

theorem visitMode_else (sc : Scope) (cx : Cx) (n : Node) (h : n.kind.isElse = true) :
    (visitMode sc cx n).2.kind.isElse = true := by
  rcases (visitMode_top sc cx n).2 with h1 | ⟨_, h1, _⟩
  · rw [h1]; exact h
  · rw [h1] at h; simp [Kind.isElse] at h

theorem visitMarker_else (sc : Scope) (cx : Cx) (n : Node) (h : n.kind.isElse = true) :
    (visitMarker sc cx n).2.kind.isElse = true := by
  unfold visitMarker
  dsimp only
  split
  · simp [Node.kind, Kind.isElse] at h
  · exact h

section
variable {env : Env} {rec : Rec} (hr : ∀ vk sc cx n, n.kind.isElse = true →
  (rec vk sc cx n).2.kind.isElse = true)
include hr

theorem expandTarget_else (cx : Cx) (n : Node) (h : n.kind.isElse = true) :
    (expandTarget env rec cx n).2.kind.isElse = true := by
  have h1 : (childExpr cx n).2.kind.isElse = true := by rw [(childExpr_top _ _).1]; exact h
  unfold expandTarget dummyExpr
  dsimp only
  split <;> exact hr _ _ _ _ h1

theorem expandParentExpr_else (cx : Cx) (n : Node) (b : Bool) (h : n.kind.isElse = true) :
    (expandParentExpr env rec cx n b).2.kind.isElse = true := by
  unfold expandParentExpr
  extract_lets cx1
  split
  · exact hr _ _ _ _ h
  · have h1 : (expandExpr env rec cx1 n).2.kind.isElse = true := by
      unfold expandExpr
      split
      · simp [Node.kind, Kind.isElse] at h
      · exact expandTarget_else hr _ _ h
    unfold expandBuild
    extract_lets r
    split
    · rfl
    · exact h1

theorem vsVisitExpr_else (vk : VK) (sc : Scope) (cx : Cx) (n : Node) (b : Bool)
    (h : n.kind.isElse = true) : (vsVisitExpr env rec vk sc cx n b).2.kind.isElse = true := by
  unfold vsVisitExpr
  split
  · rw [walk_kind]; exact h
  · rename_i hf
    have h1 := findRemoveAttr_kind hf
    split
    · dsimp only
      split
      · rw [walk_kind, h1]; exact h
      · exact expandParentExpr_else hr _ _ _ (by rw [walk_kind, h1]; exact h)
    · dsimp only
      rw [walk_kind, h1]; exact h

theorem visitExpr_else (sc : Scope) (cx : Cx) (n : Node) (b : Bool) (h : n.kind.isElse = true) :
    (visitExpr env rec sc cx n b).2.kind.isElse = true := by
  unfold visitExpr
  extract_lets cx1 isName sc1 cx2 sc2 r r1 r2
  have h1 : r.2.kind.isElse = true := visitMode_else _ _ _ h
  have h2 : r1.2.kind.isElse = true := by
    unfold r1
    split
    · exact h1
    · split
      · rename_i hf
        rw [visitNested_kind, findRemoveAttr_kind hf]; exact h1
      · exact h1
  have h3 : r2.2.kind.isElse = true := vsVisitExpr_else hr _ _ _ _ _ h2
  split
  · rw [findRemoveAttrs_kind]
    exact visitMarker_else _ _ _ h3
  · exact h3

end

theorem Kind.isElse_isExpr {k : Kind} (h : k.isElse = true) : k.isExpr = true := by
  cases k <;> simp_all [Kind.isElse, Kind.isExpr]

/-- One unfolding of the visitors. -/
def step (env : Env) (rec : Rec) : Rec := fun vk sc cx n =>
  match vk with
  | .visitor => visitorStep env rec sc cx n
  | .dummy => dummyStep env rec sc cx n

theorem step_good {env : Env} {rec : Rec} (ih : GoodRec env rec) : GoodRec env (step env rec) := by
  refine ⟨?_, ?_, ?_, ?_, ?_⟩
  · intro vk sc cx n hi
    cases vk with
    | visitor => exact visitorStep_tr ih _ _ _ hi
    | dummy => exact dummyStep_tr ih _ _ _ hi
  · intro vk sc cx n i hk
    cases vk with
    | visitor =>
      simp only [step, visitorStep, hk, Kind.isExpr, Kind.isStmt, visitStmt]
      cases n with
      | mk k as ks =>
        simp only [Node.kind] at hk
        subst hk
        simp only [Bool.false_eq_true, if_false, if_true]
        split
        · rfl
        · exact vsVisitStmt_item _ _ _ _ _ rfl
    | dummy =>
      simp only [step, dummyStep, hk, Kind.isExpr, Kind.isStmt, Bool.false_eq_true, if_false,
        if_true]
      split
      · rfl
      · exact vsVisitStmt_item _ _ _ _ _ hk
  · intro sc cx n
    exact dummyStep_variants ih _ _ _
  · intro vk sc cx n h
    cases vk with
    | visitor =>
      simp only [step, visitorStep, Kind.isElse_isExpr h, if_true]
      split
      · exact h
      · exact visitExpr_else ih.else_ _ _ _ _ h
    | dummy =>
      simp only [step, dummyStep, Kind.isElse_isExpr h, if_true]
      split
      · exact h
      · exact vsVisitExpr_else ih.else_ _ _ _ _ _ h
  · intro vk sc cx as ss
    cases vk with
    | visitor => exact ⟨_, rfl⟩
    | dummy => exact ⟨_, rfl⟩

theorem visit_good (env : Env) : ∀ f, GoodRec env (visit env f) := by
  intro f
  induction f with
  | zero =>
    exact ⟨fun _ _ cx n _ => .book (.panic _ _), fun _ _ _ _ _ _ => rfl, fun _ _ _ => rfl,
      fun _ _ _ _ h => h, fun _ _ _ _ ss => ⟨ss, rfl⟩⟩
  | succ f ih => exact step_good ih

/-- Every run is a complete trace. -/
theorem expandInput_trace {env : Env} {fuel h : Nat} {toks : List Tok} {input : Input} {cx : Cx}
    {r : Cx × Node} (hcx : Cx.new h toks true [] [] = .ok cx)
    (hrun : expandInput env fuel cx input = some r) :
    ∃ n, (input = .stmt n ∨ input = .expr n) ∧ T env true cx n r.1 r.2 := by
  cases input with
  | stmt n =>
    cases hrun
    exact ⟨n, .inl rfl, expandParentStmt_ex (visit_good env fuel) cx n (new_fresh hcx)⟩
  | expr n =>
    cases hrun
    exact ⟨n, .inr rfl, expandParentExpr_ex (visit_good env fuel) cx n false (new_fresh hcx)⟩
  | invalid => cases hrun

theorem finish_code {r : Cx × Node} {out : Node} (hr : finish r = .code out) :
    r.2 = out ∧ r.1.errs = [] ∧ r.1.panics = [] := by
  unfold finish at hr
  split at hr
  · split at hr
    · simp_all
    · cases hr
  · cases hr

/-- A run that produces code, unfolded. -/
theorem autoEnum_code {env : Env} {fuel h : Nat} {toks : List Tok} {input : Input} {out : Node}
    (hrun : autoEnum env fuel h toks input = .code out) :
    ∃ cx cx', Cx.new h toks true [] [] = .ok cx ∧ expandInput env fuel cx input = some (cx', out) ∧
      cx'.errs = [] ∧ cx'.panics = [] := by
  unfold autoEnum at hrun
  split at hrun
  · cases hrun
  · rename_i cx hcx
    split at hrun
    · rename_i r hr
      obtain ⟨h1, h2, h3⟩ := finish_code hrun
      exact ⟨cx, r.1, hcx, by rw [hr, ← h1], h2, h3⟩
    · cases hrun

/-- A run of the macro that produces code is a complete trace without errors. -/
theorem autoEnum_trace {env : Env} {fuel h : Nat} {toks : List Tok} {input : Input} {out : Node}
    (hrun : autoEnum env fuel h toks input = .code out) :
    ∃ cx n cx', Cx.new h toks true [] [] = .ok cx ∧ (input = .stmt n ∨ input = .expr n) ∧
      T env true cx n cx' out ∧ cx'.errs = [] ∧ cx'.panics = [] := by
  obtain ⟨cx, cx', h1, h2, h3, h4⟩ := autoEnum_code hrun
  obtain ⟨n, h5, h6⟩ := expandInput_trace h1 h2
  exact ⟨cx, n, cx', h1, h5, h6, h3, h4⟩

/-- All recorded errors are in the final error list. -/
theorem T.log {env : Env} {b : Bool} {cx cx' : Cx} {n n' : Node} (h : T env b cx n cx' n')
    (he : cx.log = cx.errs) : cx'.log = cx'.errs := by
  induction h with
  | refl => exact he
  | trans _ _ h1 h2 => exact h2 (h1 he)
  | book h => exact h.log he
  | kid _ _ _ h => exact h he
  | wrapVal => exact he
  | wrapArm => exact he
  | wrapBlock => exact he
  | fill => exact he
  | marker => exact he
  | tryOp => exact he
  | dropAttr => exact he
  | unmark => exact he
  | badMark => exact (Book.error _ _).log he
  | dropRec => exact (Book.error _ _).log he
  | child _ _ _ hnew _ _ heq ih1 ih2 =>
    have hch := new_args hnew
    rw [join_log heq, join_errs heq, ih1 he, ih2 ?_]
    unfold Cx.new at hnew
    split at hnew
    · cases hnew
    · dsimp only at hnew
      split at hnew
      · split at hnew <;> cases hnew; rfl
      · cases hnew; rfl
  | exPlain _ _ h => exact h he
  | exErr _ _ h => exact h he
  | exTwo _ h0 _ h =>
    have := h he
    simp [Cx.error, this]
  | exExpr _ _ h => exact h he
  | exKid _ _ h => exact h he
  | exPat _ _ h => exact h he
  | exFn _ _ h => exact h he
  | exSetup hb _ h => exact h (by rw [hb.log, hb.errs]; exact he)

end AutoEnums
