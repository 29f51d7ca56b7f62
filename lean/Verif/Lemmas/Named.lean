import Verif.Lemmas.Calm
import Verif.Lemmas.Traits
import Verif.Lemmas.TidyRun
import Verif.Lemmas.Types
import Verif.Spec.Named

/-! # Without traits to infer, type analysis has no effect -/

namespace AutoEnums.Named

open Spec

/-! ## The condition is kept -/

theorem mk (k : Kind) (as : List Attr) (ks : List Node) :
    wellNamed (.mk k as ks) = (namedHere k as && wellNamedL ks) := by rw [wellNamed]

@[simp] theorem nil : wellNamedL [] = true := by rw [wellNamedL]

@[simp] theorem cons (n : Node) (ns : List Node) : wellNamedL (n :: ns) = (wellNamed n && wellNamedL ns) := by
  rw [wellNamedL]

@[simp] theorem append (a b : List Node) : wellNamedL (a ++ b) = (wellNamedL a && wellNamedL b) := by
  induction a with
  | nil => simp
  | cons n ns ih => simp [ih, Bool.and_assoc]

theorem mem {l : List Node} (h : wellNamedL l = true) : ∀ c ∈ l, wellNamed c = true := by
  induction l with
  | nil => simp
  | cons n ns ih =>
    simp only [cons, Bool.and_eq_true] at h
    intro c hc
    cases hc with
    | head => exact h.1
    | tail _ hc => exact ih h.2 c hc

theorem kids {k : Kind} {as : List Attr} {ks : List Node} (h : wellNamed (.mk k as ks) = true) :
    wellNamedL ks = true := by
  rw [mk, Bool.and_eq_true] at h
  exact h.2

theorem plain {k : Kind} (hk : ∀ p, k ≠ .sLocal p) (as : List Attr) (ks : List Node) :
    wellNamed (.mk k as ks) = wellNamedL ks := by
  rw [mk]
  unfold namedHere
  split
  · exact absurd rfl (hk _)
  · rfl

theorem next (cx : Cx) (as : List Attr) (e : Node) : wellNamed (cx.nextExprAttrs as e).2 = wellNamed e := by
  simp [Cx.nextExprAttrs, exprCall, plain (show ∀ p, Kind.eCall ≠ .sLocal p by simp), pathE,
    plain (show ∀ p, Kind.ePath _ _ ≠ .sLocal p by simp)]

theorem findRemove {n n' : Node} {s : String} {a : Attr} (h : n.findRemoveAttr s = some (a, n'))
    (h0 : wellNamed n = true) : wellNamed n' = true := by
  obtain ⟨_, _, _, l1, l2, h1, h2⟩ := Node.findRemoveAttr_some h
  cases n with
  | mk k as ks =>
    simp only [Node.kind, Node.kids, Node.rawAttrs] at h1 h2
    subst h1 h2
    rw [mk, Bool.and_eq_true] at h0 ⊢
    refine ⟨?_, h0.2⟩
    have h0 := h0.1
    unfold namedHere at h0 ⊢
    split
    · simp only [List.all_append, List.all_cons, Bool.and_eq_true] at h0 ⊢
      exact ⟨h0.1, h0.2.2⟩
    · rfl

theorem trace {env : Env} {b : Bool} {cx cx' : Cx} {n n' : Node} (h : T env b cx n cx' n')
    (h0 : wellNamed n = true) : wellNamed n' = true := by
  induction h with
  | refl => exact h0
  | trans _ _ h1 h2 => exact h2 (h1 h0)
  | book => exact h0
  | kid _ _ _ ih =>
    rw [mk] at h0 ⊢
    simp only [append, cons, Bool.and_eq_true] at h0 ⊢
    exact ⟨h0.1, h0.2.1, ih h0.2.2.1, h0.2.2.2⟩
  | wrapVal hv hk =>
    rename_i k cx as e rest
    have hb : ∀ p, k ≠ .sLocal p := by rcases hk with rfl | ⟨l, rfl⟩ <;> simp
    rw [plain hb, cons] at h0 ⊢
    rw [Cx.nextExpr, next]; exact h0
  | wrapArm hv hg =>
    rw [plain (by simp), append, cons] at h0 ⊢
    rw [Cx.nextExpr, next]; exact h0
  | wrapBlock hv hk =>
    rename_i k cx as ss
    have hb : ∀ p, k ≠ .sLocal p := by rcases hk with rfl | ⟨l, rfl⟩ <;> simp
    rw [plain hb] at h0 ⊢
    rw [cons, tailS, plain (by simp), cons, Cx.nextExpr, next, exprBlock, plain (by simp), h0]
    rfl
  | fill hv hk =>
    rename_i k cx as
    have hb : ∀ p, k ≠ .sLocal p := by rcases hk with rfl | ⟨l, rfl⟩ <;> simp
    rw [plain hb, cons, Cx.nextExpr, next]
    simp [unitE, plain (show ∀ p, Kind.eTuple ≠ .sLocal p by simp)]
  | marker _ =>
    rw [next]
    rw [plain (by simp)] at h0
    simpa using h0
  | tryOp _ _ =>
    rw [plain (by simp)] at h0 ⊢
    simp only [cons, tryArms, exprBlock, semiS, plain (show ∀ p, Kind.arm _ ≠ .sLocal p by simp),
      plain (show ∀ p, Kind.eBlock _ ≠ .sLocal p by simp),
      plain (show ∀ p, Kind.sExpr _ ≠ .sLocal p by simp),
      plain (show ∀ p, Kind.eReturn ≠ .sLocal p by simp),
      plain (show ∀ p, Kind.eCall ≠ .sLocal p by simp), pathE,
      plain (show ∀ p, Kind.ePath _ _ ≠ .sLocal p by simp), Cx.nextExpr, next] at h0 ⊢
    simpa using h0
  | dropAttr _ hf => exact findRemove hf h0
  | unmark _ _ =>
    rw [plain (by simp)] at h0
    simpa using h0
  | badMark _ => rfl
  | dropRec hf => exact findRemove hf h0
  | child _ hf _ _ _ _ _ ih1 ih2 => exact ih2 (ih1 (findRemove hf h0))
  | exPlain _ _ ih => exact ih h0
  | exErr _ _ ih => exact ih h0
  | exTwo _ _ _ ih => exact ih h0
  | exExpr _ _ ih =>
    rw [buildExpr, exprBlock, plain (by simp), cons, Cx.buildEnum,
      plain (by simp), cons, tailS, plain (by simp), cons, ih h0]
    rfl
  | exKid hk ht ih =>
    rw [mk, cons] at h0 ⊢
    simp only [Bool.and_eq_true] at h0 ⊢
    exact ⟨h0.1, ih h0.2.1, h0.2.2⟩
  | exPat hp _ ih =>
    refine ih ?_
    rcases hp with rfl | ⟨_, s, ty, rfl, rfl⟩
    · exact h0
    · rw [mk, Bool.and_eq_true] at h0 ⊢
      exact ⟨rfl, h0.2⟩
  | exFn _ _ ih =>
    have := ih h0
    rw [plain (by simp), cons, plain (by simp)] at this ⊢
    rw [cons, Cx.buildEnum, plain (by simp), nil, Bool.true_and]
    exact this
  | exSetup _ _ ih => exact ih h0

/-! ## The two runs agree -/

/-- The recursive visits agree. -/
structure Same (env : Env) (rec rec' : Rec) : Prop extends GoodRec env rec where
  same : ∀ vk sc cx n, Inv cx → wellNamed n = true → rec' vk sc cx n = rec vk sc cx n

theorem mapA_same {f f' : Cx → Node → Cx × Node} (hi : ∀ cx n, Inv cx → Inv (f cx n).1)
    (h : ∀ cx n, Inv cx → wellNamed n = true → f' cx n = f cx n) :
    ∀ (ks : List Node) (cx : Cx), Inv cx → wellNamedL ks = true → mapA f' cx ks = mapA f cx ks
  | [], _, _, _ => rfl
  | n :: ns, cx, hc, hw => by
    rw [cons, Bool.and_eq_true] at hw
    simp only [mapA, h cx n hc hw.1, mapA_same hi h ns _ (hi cx n hc) hw.2]

section
variable {env env' : Env} (hh : env'.hash = env.hash) {rec rec' : Rec} (hr : Same env rec rec')

section
include hr

theorem walk_same (vk : VK) (sc : Scope) (cx : Cx) (n : Node) (hi : Inv cx) (hw : wellNamed n = true) :
    walk (rec' vk sc) cx n = walk (rec vk sc) cx n := by
  cases n with
  | mk k as ks =>
    simp only [walk]
    rw [mapA_same (fun cx n hi => (hr.tr vk sc cx n hi).inv hi) (hr.same vk sc) ks cx hi (kids hw)]

theorem dummyExpr_same (cx : Cx) (e : Node) (hi : Inv cx) (hw : wellNamed e = true) :
    dummyExpr rec' cx e = dummyExpr rec cx e := hr.same _ _ _ _ ((Book.assert cx _ _).inv hi) hw

theorem dummyWalk_same (cx : Cx) (e : Node) (hi : Inv cx) (hw : wellNamed e = true) :
    dummyWalk rec' cx e = dummyWalk rec cx e := walk_same hr _ _ _ _ ((Book.assert cx _ _).inv hi) hw

theorem expandTarget_same (cx : Cx) (e : Node) (hi : Inv cx) (ha : cx.args ≠ []) (hw : wellNamed e = true) :
    expandTarget env' rec' cx e = expandTarget env rec cx e := by
  have hc := childExpr_tr (env := env) e cx
  have ha' : (childExpr cx e).1.args ≠ [] := by rw [Traits.childExpr_args]; exact ha
  unfold expandTarget
  simp only [not_exit ha', Bool.false_eq_true, if_false]
  exact hr.same _ _ _ _ (hc.inv hi) (trace hc hw)

theorem expandExpr_same (cx : Cx) (e : Node) (hm : cx.mode = .default) (ha : cx.args ≠ [])
    (hw : wellNamed e = true) : expandExpr env' rec' cx e = expandExpr env rec cx e := by
  unfold expandExpr
  split
  · split
    · rename_i body hv
      dsimp only
      have hi : Inv { cx with
          mode := if (visitFn cx body).try_ ≥ 2 then .try_ else .ret (visitFn cx body).return_ } := by
        intro _ hn
        simp only at hn
        simp [Cx.visitLast, hn] at hv
      rw [expandTarget_same hr _ _ hi (by exact ha) (mem (kids hw) _ (List.mem_cons_self ..))]
    · exact expandTarget_same hr _ _ (inv_default hm) ha hw
  · exact expandTarget_same hr _ _ (inv_default hm) ha hw

theorem expandBuild_same (cx : Cx) (e : Node) (hm : cx.mode = .default) (ha : cx.args ≠ [])
    (hw : wellNamed e = true) : expandBuild env' rec' cx e = expandBuild env rec cx e := by
  unfold expandBuild
  rw [expandExpr_same hr cx e hm ha hw]

omit hr in
theorem dummy_args {cx : Cx} (ht : cx.traits = []) (h : ¬cx.isDummy = true) : cx.args ≠ [] := by
  intro ha
  exact h (by simp [Cx.isDummy, ha, ht])

theorem expandParentExpr_same (cx : Cx) (e : Node) (b : Bool) (hf : Fresh cx) (hw : wellNamed e = true) :
    expandParentExpr env' rec' cx e b = expandParentExpr env rec cx e b := by
  unfold expandParentExpr
  have hm := (semi_mode cx b).trans hf.mode
  have ht : (if b then { cx with lastMode := .never } else cx).traits = [] := by split <;> exact hf.traits
  dsimp only
  generalize (if b then { cx with lastMode := .never } else cx) = cx1 at *
  split
  · exact dummyExpr_same hr _ _ (inv_default hm) hw
  · rename_i hd
    exact expandBuild_same hr _ _ hm (dummy_args ht hd) hw

omit hr in
theorem collect_none {cx : Cx} {ty : Ty} (h : inferred cx.args ty = []) : cx.collectImplTrait ty = (cx, false) := by
  simp [Cx.collectImplTrait, collectTy_eq, h]

omit hr in
theorem local_none {cx : Cx} {p : LetPat} (h : ∀ s ty, p = .typed s ty → inferred cx.args ty = []) :
    localAnalysis env cx p = (cx, p) := by
  unfold localAnalysis
  split
  · split
    · rw [collect_none (h _ _ rfl)]
      rfl
    · rfl
  · rfl

theorem expandParentLocal_same (cx : Cx) (p : LetPat) (as : List Attr) (ks : List Node) (hf : Fresh cx)
    (hp : ∀ s ty, p = .typed s ty → inferred cx.args ty = []) (hw : wellNamed (.mk (.sLocal p) as ks) = true) :
    expandParentLocal env' rec' cx p as ks = expandParentLocal env rec cx p as ks := by
  unfold expandParentLocal
  simp only [local_none hp]
  split
  · exact dummyWalk_same hr _ _ (inv_default hf.mode) hw
  · rename_i hd
    split
    · rfl
    · rw [expandBuild_same hr _ _ hf.mode (dummy_args hf.traits hd)
        (mem (kids hw) _ (List.mem_cons_self ..))]

omit hr in
theorem fn_none {cx : Cx} {ret : Option Ty} (b : Node) (h : ∀ ty, ret = some ty → inferred cx.args ty = []) :
    fnAnalysis env cx ret b = match ret with
      | none => cx
      | some ty => { cx with mode := retMode cx ty b } := by
  unfold fnAnalysis
  split
  · rfl
  · rename_i ty
    dsimp only
    split
    · have := h ty rfl
      rw [collect_none (by exact this)]
    · rfl

theorem expandParentFn_same (cx : Cx) (name : String) (ret : Option Ty) (as asb : List Attr) (ss : List Node)
    (hf : Fresh cx) (hp : ∀ ty, ret = some ty → inferred cx.args ty = []) (hw : wellNamedL ss = true) :
    expandParentFn env' rec' cx name ret as asb ss = expandParentFn env rec cx name ret as asb ss := by
  have hb := fnAnalysis_setup (env := env) cx name ret as [.mk .block asb ss] (.mk .block asb ss) hf
  have hi := hb.inv hf.mode
  have hfn : ∀ ss, wellNamedL ss = true → wellNamed (.mk (.iFn name ret) as [.mk .block asb ss]) = true := by
    intro ss h
    rw [plain (by simp), cons, plain (by simp), h]; rfl
  have ht : (fnAnalysis env cx ret (.mk .block asb ss)).traits = [] := by
    rw [fn_none _ hp]
    split <;> exact hf.traits
  have he : fnAnalysis env' cx ret (.mk .block asb ss) = fnAnalysis env cx ret (.mk .block asb ss) := by
    rw [fn_none _ hp, fn_none _ hp]
  unfold expandParentFn
  rw [he]
  generalize fnAnalysis env cx ret (.mk .block asb ss) = cx1 at *
  dsimp only
  split
  · exact dummyWalk_same hr _ _ hi (hfn _ hw)
  · rename_i hd
    have ha := dummy_args ht hd
    generalize hr1 : (if ss.isEmpty = true then (cx1.error .emptyFn, ss) else childLast cx1 ss) = r
    have h1 : T env false cx1 (.mk (.iFn name ret) as [.mk .block asb ss]) r.1
        (.mk (.iFn name ret) as [.mk .block asb r.2]) := by
      refine T.kid0 rfl (.plain rfl (by simp)) ?_
      subst hr1
      split
      · exact .book (.error _ _)
      · exact childLast_tr (k := .block) rfl asb ss (fun m _ => childExpr_tr m) cx1 ss [] (fun _ h => h)
    have ha1 : r.1.args ≠ [] := by
      subst hr1
      split
      · exact ha
      · rw [Traits.childLast_args]; exact ha
    simp only [not_exit ha1, Bool.false_eq_true, if_false]
    rw [walk_same hr _ _ _ _ (h1.inv hi) (trace h1 (hfn _ hw))]

/-- What is asked of the type of the annotated statement itself. -/
def Says (args : List Path) (n : Node) : Prop :=
  ∀ ty, annotationOf (n.kind, n.rawAttrs) = some ty → inferred args ty = []

theorem expandParentStmt_same (cx : Cx) (n : Node) (hf : Fresh cx) (hp : Says cx.args n)
    (hw : wellNamed n = true) : expandParentStmt env' rec' cx n = expandParentStmt env rec cx n := by
  unfold expandParentStmt
  split
  · rw [expandParentExpr_same hr _ _ _ hf (mem (kids hw) _ (List.mem_cons_self ..))]
  · refine expandParentLocal_same hr _ _ _ _ hf ?_ hw
    rintro s ty rfl
    exact hp ty rfl
  · exact expandParentFn_same hr _ _ _ _ _ _ hf (fun ty h => hp ty h)
      (kids (mem (kids hw) _ (List.mem_cons_self ..)))
  · rfl
  · rfl

end

theorem makeChild_inv {cx : Cx} (hi : Inv cx) (h : Nat) (toks : List Tok) : Inv (cx.makeChild h toks).1 := by
  refine inv_modeOnly ?_ ?_ hi <;>
  · unfold Cx.makeChild Cx.assert Cx.panic
    dsimp only
    split <;> rfl

theorem makeChild_new {cx ch : Cx} {h : Nat} {toks : List Tok} (hm : (cx.makeChild h toks).2 = .ok ch) :
    ∃ ms d, Cx.new h toks false ms d = .ok ch := ⟨_, _, hm⟩

include hh hr

theorem vsVisitExpr_same (vk : VK) (sc : Scope) (cx : Cx) (n : Node) (b : Bool) (hi : Inv cx)
    (hw : wellNamed n = true) : vsVisitExpr env' rec' vk sc cx n b = vsVisitExpr env rec vk sc cx n b := by
  unfold vsVisitExpr
  split
  · exact walk_same hr _ _ _ _ hi hw
  · rename_i attr n1 hf
    have hw1 := findRemove hf hw
    split
    · rename_i toks hform
      dsimp only
      rw [hh]
      have hmi := makeChild_inv hi (env.hash n1) toks
      rw [walk_same hr _ _ _ _ hmi hw1]
      split
      · rfl
      · rename_i ch hm
        obtain ⟨ms, d, hn⟩ := makeChild_new hm
        rw [expandParentExpr_same hr _ _ _ (new_fresh hn) (trace (walk_tr hr.toGoodRec vk sc _ n1 hmi) hw1)]
    · dsimp only
      rw [walk_same hr _ _ _ _ hi hw1]

omit hh in
theorem visitLocal_same (vk : VK) (sc : Scope) (cx : Cx) (n : Node) (hi : Inv cx) (hw : wellNamed n = true) :
    visitLocal rec' vk sc cx n = visitLocal rec vk sc cx n := by
  unfold visitLocal
  split
  · exact walk_same hr _ _ _ _ hi hw
  · split
    · rfl
    · extract_lets r w' w
      have h1 : T env false cx n r.1 r.2 := by
        unfold r
        split
        · exact .refl
        · split
          · rename_i hf
            exact T.trans (.dropAttr (by simp) hf) (T.kid0 rfl (.plain rfl (by simp)) (visitNested_tr _ _ _ _))
          · rename_i hf
            exact .dropAttr (by simp) hf
          · exact .refl
      have : w' = w := walk_same hr _ _ _ _ (h1.inv hi) (trace h1 hw)
      rw [this]

end

theorem visitLocal_kind (rec : Rec) (vk : VK) (sc : Scope) (cx : Cx) (n : Node) :
    (visitLocal rec vk sc cx n).2.kind = n.kind := by
  unfold visitLocal
  split
  · exact walk_kind _ _ _
  · split
    · rfl
    · extract_lets r w
      rw [findRemoveAttrs_kind]
      refine (walk_kind _ _ _).trans ?_
      unfold r
      split
      · rfl
      · split
        · rename_i hf
          have := findRemoveAttr_kind hf
          exact this
        · rename_i hf; exact findRemoveAttr_kind hf
        · rfl

theorem namesAll_new {h : Nat} {toks : List Tok} {root : Bool} {ms : List String} {d : List Err} {ch : Cx}
    (hn : Cx.new h toks root ms d = .ok ch) {ty : Ty} (ht : namesAll toks ty = true) : inferred ch.args ty = [] := by
  obtain ⟨m, hp, _⟩ := new_args hn
  unfold namesAll at ht
  rw [hp] at ht
  simpa using ht

/-- An attribute that is taken from a `let` names the traits of its type. -/
theorem let_says {n n1 : Node} {attr : Attr} (hf : n.findRemoveAttr NAME = some (attr, n1))
    {p : LetPat} {as : List Attr} {ks : List Node} (hn : n = .mk (.sLocal p) as ks) (hw : wellNamed n = true)
    {s : String} {ty : Ty} (hp : p = .typed s ty) : namesAll (argsOf attr) ty = true := by
  obtain ⟨_, hi, _, l1, l2, h1, _⟩ := Node.findRemoveAttr_some hf
  subst hn hp
  simp only [Node.rawAttrs] at h1
  subst h1
  rw [mk, Bool.and_eq_true] at hw
  have hw := hw.1
  simp only [namedHere, List.all_append, List.all_cons, Bool.and_eq_true, Bool.or_eq_true] at hw
  rcases hw.2.1 with h | h
  · have hi : attr.is "auto_enum" = true := hi
    simp [hi] at h
  · exact h

section
variable {env env' : Env} (hh : env'.hash = env.hash) {rec rec' : Rec} (hr : Same env rec rec')
include hh hr

theorem vsVisitStmt_same (vk : VK) (sc : Scope) (cx : Cx) (n : Node) (hi : Inv cx)
    (hw : wellNamed n = true) : vsVisitStmt env' rec' vk sc cx n = vsVisitStmt env rec vk sc cx n := by
  unfold vsVisitStmt
  split
  · rw [vsVisitExpr_same hh hr _ _ _ _ _ hi (mem (kids hw) _ (List.mem_cons_self ..))]
  · rename_i p as ks
    split
    · exact visitLocal_same hr _ _ _ _ hi hw
    · rename_i attr n1 hf
      have hw1 := findRemove hf hw
      have hk1 := findRemoveAttr_kind hf
      split
      · rename_i toks htoks
        have ht : argsOf attr = toks := by
          unfold argsOf
          split at htoks <;> simp_all
        dsimp only
        rw [hh]
        have hmi := makeChild_inv hi (env.hash n1) toks
        rw [visitLocal_same hr _ _ _ _ hmi hw1]
        split
        · rfl
        · rename_i ch hm
          obtain ⟨ms, d, hn⟩ := makeChild_new hm
          rw [expandParentStmt_same hr _ _ (new_fresh hn) ?_
            (trace (visitLocal_tr hr.toGoodRec vk sc _ n1 hmi) hw1)]
          intro ty hty
          rw [visitLocal_kind, hk1] at hty
          refine namesAll_new hn ?_
          rw [← ht]
          cases p with
          | typed s ty' =>
            cases hty
            exact let_says hf rfl hw rfl
          | plain => cases hty
      · dsimp only
        rw [visitLocal_same hr _ _ _ _ hi hw1]
  · rfl

theorem visitExpr_same (sc : Scope) (cx : Cx) (n : Node) (b : Bool) (hi : Inv cx) (hw : wellNamed n = true) :
    visitExpr env' rec' sc cx n b = visitExpr env rec sc cx n b := by
  unfold visitExpr
  extract_lets cx1 isName sc1 cx2 sc2 r r1 r2' r3' r2 r3
  have hi2 : Inv cx2 := by
    have h1 : Inv cx1 := (Book.assert cx _ _).inv hi
    unfold cx2
    split
    · exact h1
    · exact h1
  have ht : T env false cx2 n r1.1 r1.2 := by
    have h1 : T env false cx2 n r.1 r.2 := visitMode_tr sc2 cx2 n hi2
    unfold r1
    split
    · exact h1
    · split
      · rename_i hf
        exact h1.trans (T.trans (.dropAttr (by simp) hf) (visitNested_tr _ _ _ _))
      · exact h1
  have h2 : r2' = r2 := vsVisitExpr_same hh hr _ _ _ _ _ (ht.inv hi2) (trace ht hw)
  unfold r3' r3
  rw [h2]

omit hh in
theorem visitArm_same (sc : Scope) (cx : Cx) (n : Node) (hi : Inv cx) (hw : wellNamed n = true) :
    visitArm rec' sc cx n = visitArm rec sc cx n := by
  unfold visitArm
  split
  · rfl
  · extract_lets r w' w
    have h1 : T env false cx n r.1 r.2 := by
      unfold r
      split
      · exact .refl
      · split
        · rename_i hf
          exact T.trans (.dropAttr (by simp) hf) (T.kid0 rfl (.plain rfl (by simp)) (visitNested_tr _ _ _ _))
        · rename_i hf
          exact T.trans (.dropAttr (by simp) hf) (T.kid1 rfl (.plain rfl (by simp)) (visitNested_tr _ _ _ _))
        · rename_i hf
          exact .dropAttr (by simp) hf
        · exact .refl
    have : w' = w := walk_same hr _ _ _ _ (h1.inv hi) (trace h1 hw)
    rw [this]

theorem visitStmt_same (sc : Scope) (cx : Cx) (n : Node) (hi : Inv cx) (hw : wellNamed n = true) :
    visitStmt env' rec' sc cx n = visitStmt env rec sc cx n := by
  unfold visitStmt
  split
  · rfl
  · split
    · rw [visitExpr_same hh hr _ _ _ _ hi (mem (kids hw) _ (List.mem_cons_self ..))]
    · dsimp only
      refine vsVisitStmt_same hh hr _ _ _ _ ?_ hw
      split <;> exact hi

theorem step_same (vk : VK) (sc : Scope) (cx : Cx) (n : Node) (hi : Inv cx) (hw : wellNamed n = true) :
    step env' rec' vk sc cx n = step env rec vk sc cx n := by
  cases vk with
  | visitor =>
    simp only [step]
    unfold visitorStep
    split
    · rw [visitExpr_same hh hr _ _ _ _ hi hw]
    · split
      · exact visitStmt_same hh hr _ _ _ hi hw
      · split
        · exact visitArm_same hr _ _ _ hi hw
        · exact walk_same hr _ _ _ _ hi hw
  | dummy =>
    have hc : ∀ b : Bool, Inv (if b then { cx with hasChild := true } else cx) := by
      intro b; split <;> exact hi
    simp only [step]
    unfold dummyStep
    dsimp only
    rw [vsVisitExpr_same hh hr _ _ _ _ _ (hc _) hw, vsVisitStmt_same hh hr _ _ _ _ (hc _) hw,
      walk_same hr _ _ _ _ hi hw]

end

theorem visit_same {env env' : Env} (hh : env'.hash = env.hash) : ∀ f, Same env (visit env f) (visit env' f)
  | 0 => ⟨visit_good env 0, fun _ _ _ _ _ _ => rfl⟩
  | f + 1 => ⟨visit_good env (f + 1), step_same hh (visit_same hh f)⟩

end AutoEnums.Named
