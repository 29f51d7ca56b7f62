import Verif.Run

/-! # Every successful expansion is a derivation -/

namespace AutoEnums

open Judg

/-- Errors and panics of `a` are still there in `b`. -/
def Keeps (a b : Cx) : Prop := Clean b → Clean a

namespace Keeps

theorem refl (a : Cx) : Keeps a a := id

theorem trans {a b c : Cx} (h : Keeps a b) (h' : Keeps b c) : Keeps a c := fun x => h (h' x)

theorem error (a : Cx) (e : Err) : Keeps a (a.error e) := fun h => by
  simp [Clean, Cx.error] at h

theorem not_error {a : Cx} {e : Err} : ¬Clean (a.error e) := by simp [Clean, Cx.error]

theorem panic (a : Cx) (p : Panic) : Keeps a (a.panic p) := fun h => by
  simp [Clean, Cx.panic] at h

theorem not_panic {a : Cx} {p : Panic} : ¬Clean (a.panic p) := by simp [Clean, Cx.panic]

theorem assert (a : Cx) (b : Bool) (p : Panic) : Keeps a (a.assert b p) := by
  unfold Cx.assert; split
  · exact .refl _
  · exact .panic _ _

theorem same {a b : Cx} (h1 : b.errs = a.errs) (h2 : b.panics = a.panics) : Keeps a b := by
  unfold Keeps Clean; rw [h1, h2]; exact id

end Keeps

theorem Clean.assert {a : Cx} {b : Bool} {p : Panic} (h : Clean (a.assert b p)) :
    b = true ∧ a.assert b p = a := by
  cases b with
  | true => exact ⟨rfl, rfl⟩
  | false => exact absurd h Keeps.not_panic

theorem Clean.hasError {cx : Cx} (h : Clean cx) : cx.hasError = false := by
  simp [Cx.hasError, h.1]

theorem wrapArm_keeps (cx : Cx) (n : Node) : Keeps cx (wrapArm cx n).1 := by
  unfold wrapArm
  split
  · exact .refl _
  · split
    · exact .same rfl rfl
    · exact .same rfl rfl
    · exact .refl _

theorem wrapBlock_keeps (cx : Cx) (ss : List Node) : Keeps cx (wrapBlock cx ss).1 := by
  unfold wrapBlock
  split
  · exact .refl _
  · exact .same rfl rfl

theorem mapA_keeps {f : Cx → Node → Cx × Node} (hf : ∀ cx n, Keeps cx (f cx n).1) :
    ∀ (l : List Node) (cx : Cx), Keeps cx (mapA f cx l).1 := by
  intro l
  induction l with
  | nil => intro cx; exact .refl _
  | cons a l ih => intro cx; simp only [mapA]; exact (hf cx a).trans (ih _)

theorem visitIf_keeps : ∀ (n : Node) (cx : Cx), Keeps cx (visitIf cx n).1 := by
  intro n
  induction n using Node.strongInd with
  | h n ih =>
    intro cx
    unfold visitIf
    split
    · exact (wrapBlock_keeps _ _).trans (.error _ _)
    · rename_i as c asb ss e
      dsimp only
      split
      · exact (wrapBlock_keeps _ _).trans (wrapBlock_keeps _ _)
      · exact (wrapBlock_keeps _ _).trans (ih e (Node.sizeOf_kid (by simp)) _)
      · exact (wrapBlock_keeps _ _).trans (.panic _ _)
    · exact .refl _

theorem loopVisit_same (label : Option String) : ∀ (n : Node) (nested : Bool) (cx : Cx),
    (loopVisit label nested cx n).1.errs = cx.errs ∧
    (loopVisit label nested cx n).1.panics = cx.panics := by
  intro n
  induction n using Node.ind with
  | h k as ks ih =>
    intro nested cx
    have hl : ∀ (nested : Bool) (l : List Node) (cx : Cx), (∀ c ∈ l, c ∈ ks) →
        (loopVisitL label nested cx l).1.errs = cx.errs ∧
        (loopVisitL label nested cx l).1.panics = cx.panics := by
      intro nested l
      induction l with
      | nil => intro cx _; exact ⟨rfl, rfl⟩
      | cons a l ihl =>
        intro cx hm
        simp only [loopVisitL]
        have h1 := ih a (hm a (by simp)) nested cx
        have h2 := ihl (loopVisit label nested cx a).1 fun c hc => hm c (by simp [hc])
        exact ⟨h2.1.trans h1.1, h2.2.trans h1.2⟩
    unfold loopVisit
    split
    · exact ⟨rfl, rfl⟩
    · split
      · exact ⟨rfl, rfl⟩
      · exact ⟨rfl, rfl⟩
      · split
        · exact ⟨rfl, rfl⟩
        · exact hl _ _ _ fun _ h => h
      · split
        · exact ⟨rfl, rfl⟩
        · exact hl _ _ _ fun _ h => h
      · split
        · exact ⟨rfl, rfl⟩
        · exact hl _ _ _ fun _ h => h
      · split
        · split
          · exact ⟨rfl, rfl⟩
          · split
            · exact ⟨rfl, rfl⟩
            · rename_i e rest _
              exact ih e (by simp) nested _
        · exact hl _ _ _ fun _ h => h
      · exact hl _ _ _ fun _ h => h

theorem loopVisitL_keeps (label : Option String) (nested : Bool) :
    ∀ (l : List Node) (cx : Cx), Keeps cx (loopVisitL label nested cx l).1 := by
  intro l
  induction l with
  | nil => intro cx; unfold loopVisitL; exact .refl _
  | cons a l ih =>
    intro cx
    unfold loopVisitL
    have h := loopVisit_same label a nested cx
    exact (Keeps.same h.1 h.2).trans (ih _)

theorem childLast_keeps (ks : List Node)
    (ih : ∀ m, sizeOf m < sizeOf ks → ∀ cx, Keeps cx (childExpr cx m).1) (cx : Cx) :
    Keeps cx (childLast cx ks).1 := by
  induction ks with
  | nil => unfold childLast; exact .refl _
  | cons a l ihl =>
    unfold childLast
    split
    · contradiction
    · rename_i as' e heq
      obtain ⟨rfl, rfl⟩ := List.cons.inj heq
      exact ih e (by simp; omega) cx
    · exact .refl _
    · rename_i s t ss heq
      obtain ⟨rfl, rfl⟩ := List.cons.inj heq
      exact ihl fun m hm => ih m (by simp at hm ⊢; omega)

theorem childExpr_keeps : ∀ (n : Node) (cx : Cx), Keeps cx (childExpr cx n).1 := by
  intro n
  induction n using Node.strongInd with
  | h n ih =>
    intro cx
    cases n with
    | mk k as ks =>
      unfold childExpr
      split
      · exact .refl _
      · split
        · exact childLast_keeps _ (fun m hm => ih m (by simp; omega)) cx
        · exact childLast_keeps _ (fun m hm => ih m (by simp; omega)) cx
        · exact mapA_keeps wrapArm_keeps _ _
        · exact visitIf_keeps _ _
        · exact loopVisitL_keeps _ _ _ _
        · exact ih _ (Node.sizeOf_kid (by simp)) _
        · exact ih _ (Node.sizeOf_kid (by simp)) _
        · exact .refl _

theorem childLast_keeps' (ks : List Node) (cx : Cx) : Keeps cx (childLast cx ks).1 :=
  childLast_keeps ks (fun m _ => childExpr_keeps m) cx

theorem visitMode_same (sc : Scope) (cx : Cx) (n : Node) :
    (visitMode sc cx n).1.errs = cx.errs ∧ (visitMode sc cx n).1.panics = cx.panics := by
  unfold visitMode
  split
  · unfold visitReturn
    split
    · split
      · rename_i as ks
        unfold Cx.replaceBoxed
        split
        · exact ⟨rfl, rfl⟩
        · split <;> exact ⟨rfl, rfl⟩
      · exact ⟨rfl, rfl⟩
    · exact ⟨rfl, rfl⟩
  · unfold visitTry
    split
    · split
      · split <;> exact ⟨rfl, rfl⟩
      · exact ⟨rfl, rfl⟩
    · exact ⟨rfl, rfl⟩
  · exact ⟨rfl, rfl⟩

theorem seen_same (cx : Cx) (n : Node) : (seen cx n).errs = cx.errs ∧
    (seen cx n).panics = cx.panics := by
  unfold seen; split <;> exact ⟨rfl, rfl⟩

theorem visitNested_keeps (sc : Scope) (cx : Cx) (n : Node) (a : Attr) :
    Keeps cx (visitNested sc cx n a).1 := by
  unfold visitNested
  dsimp only
  split
  · exact (Keeps.assert _ _ _).trans (childExpr_keeps _ _)
  · exact (Keeps.assert _ _ _).trans (.error _ _)

theorem nestedStep_keeps (sc : Scope) (cx : Cx) (n : Node) : Keeps cx (nestedStep sc cx n).1 := by
  unfold nestedStep
  split
  · exact .refl _
  · split
    · exact visitNested_keeps _ _ _ _
    · exact .refl _

theorem pre_keeps (vk : VK) (sc : Scope) (cx : Cx) (n : Node) : Keeps cx (pre vk sc cx n).1 := by
  unfold pre
  have h := seen_same cx n
  split
  · have h2 := visitMode_same sc (seen cx n) n
    exact (Keeps.same (h2.1.trans h.1) (h2.2.trans h.2)).trans (nestedStep_keeps _ _ _)
  · exact .same h.1 h.2

theorem preSub_keeps (vk : VK) (sc : Scope) (cx : Cx) (n : Node) :
    Keeps cx (preSub vk sc cx n).1 := by
  unfold preSub
  split
  · split
    · exact .refl _
    · split
      · exact visitNested_keeps _ _ _ _
      · exact visitNested_keeps _ _ _ _
      · exact visitNested_keeps _ _ _ _
      · exact .refl _
      · exact .refl _
  · exact .refl _

theorem findRemoveAttrs_keeps (sc : Scope) (cx : Cx) (n : Node) :
    Keeps cx (findRemoveAttrs sc cx n).1 := by
  unfold findRemoveAttrs
  split
  · exact .refl _
  · dsimp only
    have h1 : Keeps cx (match n.findRemoveAttr NEVER with
        | some (a, n) => (if a.form == Meta.path then cx else cx.error .neverNotPath, n)
        | none => (cx, n)).1 := by
      split
      · dsimp only
        split
        · exact .refl _
        · exact .error _ _
      · exact .refl _
    split
    · exact h1.trans (.error _ _)
    · exact h1

theorem visitMarker_keeps (sc : Scope) (cx : Cx) (n : Node) :
    Keeps cx (visitMarker sc cx n).1 := by
  unfold visitMarker
  dsimp only
  refine (Keeps.assert cx (!sc.foreign || cx.marker != DEFAULT_MARKER) .markerForeign).trans ?_
  generalize cx.assert (!sc.foreign || cx.marker != DEFAULT_MARKER) .markerForeign = cx1
  split
  · split
    · split
      · split
        · exact .refl _
        · exact .same rfl rfl
      · exact .error _ _
    · exact .refl _
  · exact .refl _

theorem post_keeps (vk : VK) (sc : Scope) (cx : Cx) (n : Node) : Keeps cx (post vk sc cx n).1 := by
  unfold post
  split
  · split
    · exact (visitMarker_keeps _ _ _).trans (findRemoveAttrs_keeps _ _ _)
    · exact .refl _
  · exact .refl _

theorem postSub_keeps (vk : VK) (sc : Scope) (cx : Cx) (n : Node) :
    Keeps cx (postSub vk sc cx n).1 := by
  unfold postSub
  split
  · exact findRemoveAttrs_keeps _ _ _
  · exact .refl _

theorem joinChild_clean {cx ch : Cx} (h : Clean (cx.joinChild ch)) : Clean cx ∧ Clean ch := by
  unfold Cx.joinChild Cx.assert Cx.panic Clean at h
  dsimp only at h
  split at h
  · simp only [List.append_eq_nil_iff] at h
    exact ⟨⟨h.1.1, h.2.1⟩, h.1.2, h.2.2⟩
  · simp at h

/-! ## Functions -/

/-- What is assumed of the recursive visit. -/
structure RunRec (env : Env) (rec : Rec) : Prop where
  run : ∀ vk sc cx n, Clean (rec vk sc cx n).1 →
    Clean cx ∧ Run env (one vk sc cx n (rec vk sc cx n).1 (rec vk sc cx n).2)
  eq : ∃ f, rec = visit env f

section
variable {env : Env} {rec : Rec} (hr : RunRec env rec)
include hr

theorem mapA_run (vk : VK) (sc : Scope) : ∀ (ns : List Node) (cx : Cx),
    Clean (mapA (rec vk sc) cx ns).1 → Clean cx ∧
      Run env (many vk sc cx ns (mapA (rec vk sc) cx ns).1 (mapA (rec vk sc) cx ns).2) := by
  intro ns
  induction ns with
  | nil => intro cx h; exact ⟨h, .nil⟩
  | cons n ns ih =>
    intro cx h
    simp only [mapA] at h ⊢
    obtain ⟨h1, h2⟩ := ih _ h
    obtain ⟨h3, h4⟩ := hr.run vk sc cx n h1
    exact ⟨h3, .cons h4 h2⟩

theorem walk_run (vk : VK) (sc : Scope) (n : Node) (cx : Cx)
    (h : Clean (walk (rec vk sc) cx n).1) : Clean cx ∧
      ∃ ks, Run env (many vk sc cx n.sub (walk (rec vk sc) cx n).1 ks) ∧
        (walk (rec vk sc) cx n).2 = n.rebuild ks := by
  cases n with
  | mk k as ks =>
    simp only [walk] at h ⊢
    by_cases hk : k.isOpaque = true
    · simp only [hk, if_true, Node.sub, Node.rebuild] at h ⊢
      exact ⟨h, [], .nil, trivial⟩
    · simp only [hk, if_false, Node.sub, Node.rebuild, Bool.false_eq_true] at h ⊢
      obtain ⟨h1, h2⟩ := mapA_run hr vk sc ks cx h
      exact ⟨h1, _, h2, rfl⟩

theorem dummyExpr_run (cx : Cx) (e : Node) (h : Clean (dummyExpr rec cx e).1) :
    Clean cx ∧ Run env (one .dummy {} cx e (dummyExpr rec cx e).1 (dummyExpr rec cx e).2) := by
  unfold dummyExpr at h ⊢
  obtain ⟨h1, h2⟩ := hr.run _ _ _ _ h
  have h3 := h1.assert.2
  rw [h3] at h1 h2
  rw [h3]
  exact ⟨h1, h2⟩

theorem dummyWalk_run (cx : Cx) (n : Node) (h : Clean (dummyWalk rec cx n).1) :
    Clean cx ∧ ∃ ks, Run env (many .dummy {} cx n.sub (dummyWalk rec cx n).1 ks) ∧
      (dummyWalk rec cx n).2 = n.rebuild ks := by
  unfold dummyWalk at h ⊢
  obtain ⟨h1, ks, h2, h3⟩ := walk_run hr _ _ _ _ h
  have h4 := h1.assert.2
  rw [h4] at h1 h2 h3
  rw [h4]
  exact ⟨h1, ks, h2, h3⟩

theorem expandTarget_run (cx : Cx) (e : Node) (h : Clean (expandTarget env rec cx e).1) :
    Clean cx ∧ Run env (target cx e (expandTarget env rec cx e).1 (expandTarget env rec cx e).2) := by
  unfold expandTarget at h ⊢
  dsimp only at h ⊢
  split
  · rename_i hx
    simp only [hx, if_true] at h
    obtain ⟨h1, h2⟩ := dummyExpr_run hr _ _ h
    exact ⟨childExpr_keeps _ _ h1, .targetExit hx h1 h2⟩
  · rename_i hx
    simp only [hx] at h
    obtain ⟨h1, h2⟩ := hr.run _ _ _ _ h
    exact ⟨childExpr_keeps _ _ h1, .target (by simpa using hx) h1 h2⟩

omit hr in
theorem build_clean {cx : Cx} (h : Clean cx.build.1) :
    Buildable cx ∧ cx.build.1 = cx ∧
      cx.build.2 = if cx.variants.isEmpty then none else some cx.buildEnum := by
  unfold Cx.build at h ⊢
  split
  · rename_i he
    simp only [he, if_true] at h
    simp [h.hasError] at he
  · rename_i he
    simp only [he, if_false, Bool.false_eq_true] at h
    split
    · rename_i hc
      simp only [hc, if_true] at h
      exact absurd h Keeps.not_error
    · rename_i hc
      simp only [hc, if_false] at h
      simp only [not_or, not_and, Bool.not_eq_true, Bool.not_eq_false'] at hc
      split
      · rename_i hv
        simp only [hv, if_true] at h
        simp only [List.isEmpty_iff] at hv
        refine ⟨⟨h, .inr ⟨hv, ?_⟩⟩, rfl, rfl⟩
        simpa using hc.2 (by simp [hv])
      · rename_i hv
        simp only [hv, if_false, Bool.false_eq_true] at h
        refine ⟨⟨h, .inl ?_⟩, rfl, rfl⟩
        have h0 : cx.variants.length ≠ 0 := by
          intro h0; exact hv (by simpa using h0)
        omega

theorem expandBuild_run (cx : Cx) (e : Node) (h : Clean (expandBuild env rec cx e).1) :
    Clean cx ∧ Run env (build cx e (expandBuild env rec cx e).1 (expandBuild env rec cx e).2) := by
  have key : Clean (expandExpr env rec cx e).1.build.1 ∧ expandBuild env rec cx e =
      ((expandExpr env rec cx e).1, built (expandExpr env rec cx e).1
        (expandExpr env rec cx e).2) := by
    unfold expandBuild at h ⊢
    dsimp only at h ⊢
    generalize expandExpr env rec cx e = r at h ⊢
    have hc : Clean r.1.build.1 := by
      split at h <;> rename_i hb <;> rw [hb] <;> exact h
    refine ⟨hc, ?_⟩
    obtain ⟨_, h2, h3⟩ := build_clean hc
    unfold built
    rw [show r.1.build = (r.1.build.1, r.1.build.2) from rfl, h2, h3]
    by_cases hv : r.1.variants.isEmpty = true <;> simp [hv]
  obtain ⟨hb, hx⟩ := key
  generalize he : expandExpr env rec cx e = r at hb hx
  obtain ⟨cx', e'⟩ := r
  obtain ⟨hbu, _, _⟩ := build_clean hb
  rw [hx]
  unfold expandExpr at he
  split at he
  · split at he
    · rename_i i as body hv
      dsimp only at he
      have hclean := hbu.1
      simp only [Prod.mk.injEq] at he
      obtain ⟨he1, he2⟩ := he
      subst he1 he2
      obtain ⟨h1, h2⟩ := expandTarget_run hr _ _ hclean
      exact ⟨Keeps.same rfl rfl h1, .buildClosure hv h2 hbu⟩
    · rename_i i as body hv
      have hclean := hbu.1
      rw [show cx' = (expandTarget env rec cx (.mk (.eClosure i) as [body])).1 by rw [he]] at hclean
      obtain ⟨h1, h2⟩ := expandTarget_run hr _ _ hclean
      rw [he] at h2
      exact ⟨h1, .buildExpr (fun hv' => absurd hv' hv) h2 hbu⟩
  · rename_i hne
    have hclean := hbu.1
    rw [show cx' = (expandTarget env rec cx e).1 by rw [he]] at hclean
    obtain ⟨h1, h2⟩ := expandTarget_run hr _ _ hclean
    rw [he] at h2
    exact ⟨h1, .buildExpr (fun _ i as b heq => hne i as b heq) h2 hbu⟩

omit hr in
theorem semi_keeps (cx : Cx) (semi : Bool) :
    Keeps cx (if semi then { cx with lastMode := .never } else cx) := by
  cases semi
  · exact .refl _
  · exact .same rfl rfl

theorem expandParentExpr_run (cx : Cx) (e : Node) (semi : Bool)
    (h : Clean (expandParentExpr env rec cx e semi).1) : Clean cx ∧
      Run env (onExpr semi cx e (expandParentExpr env rec cx e semi).1
        (expandParentExpr env rec cx e semi).2) := by
  unfold expandParentExpr at h ⊢
  have hk := semi_keeps cx semi
  dsimp only at h ⊢
  generalize hcx : (if semi then { cx with lastMode := .never } else cx : Cx) = cx1 at *
  by_cases hd : cx1.isDummy = true
  · simp only [hd, if_true] at h ⊢
    obtain ⟨h1, h2⟩ := dummyExpr_run hr _ _ h
    exact ⟨hk h1, .exprDummy (by rw [hcx]; exact hd) (by rw [hcx]; exact h2)⟩
  · simp only [hd, if_false, Bool.false_eq_true] at h ⊢
    obtain ⟨h1, h2⟩ := expandBuild_run hr _ _ h
    exact ⟨hk h1, .exprBuild (by rw [hcx]; simpa using hd) (by rw [hcx]; exact h2)⟩

omit hr in
theorem collect_keeps (cx : Cx) (ty : Ty) : Keeps cx (cx.collectImplTrait ty).1 :=
  .same rfl rfl

omit hr in
theorem localAnalysis_keeps (cx : Cx) (p : LetPat) : Keeps cx (localAnalysis env cx p).1 := by
  unfold localAnalysis
  split
  · split
    · exact collect_keeps _ _
    · exact .refl _
  · exact .refl _

omit hr in
theorem fnAnalysis_keeps (cx : Cx) (ret : Option Ty) (b : Node) :
    Keeps cx (fnAnalysis env cx ret b) := by
  unfold fnAnalysis
  split
  · exact .refl _
  · dsimp only
    split
    · exact Keeps.trans (.same rfl rfl) (collect_keeps _ _)
    · exact .same rfl rfl

theorem expandParentLocal_run (cx : Cx) (p : LetPat) (as : List Attr) (ks : List Node)
    (h : Clean (expandParentLocal env rec cx p as ks).1) : Clean cx ∧
      Run env (onStmt cx (.mk (.sLocal p) as ks) (expandParentLocal env rec cx p as ks).1
        (expandParentLocal env rec cx p as ks).2) := by
  unfold expandParentLocal at h ⊢
  dsimp only at h ⊢
  have hk := localAnalysis_keeps (env := env) cx p
  split
  · rename_i hd
    simp only [hd, if_true] at h
    obtain ⟨h1, ks', h2, h3⟩ := dummyWalk_run hr _ _ h
    rw [h3]
    exact ⟨hk h1, .stmtLocalDummy rfl hd h2⟩
  · rename_i hd
    simp only [hd, if_false, Bool.false_eq_true] at h
    have hd : (localAnalysis env cx p).1.isDummy = false := Bool.eq_false_iff.mpr hd
    cases ks with
    | nil => exact absurd h Keeps.not_error
    | cons e els =>
      obtain ⟨h1, h2⟩ := expandBuild_run hr _ _ h
      exact ⟨hk h1, .stmtLocal rfl hd h2⟩

theorem expandParentFn_run (cx : Cx) (name : String) (ret : Option Ty) (as asb : List Attr)
    (ss : List Node) (h : Clean (expandParentFn env rec cx name ret as asb ss).1) : Clean cx ∧
      Run env (onStmt cx (.mk (.iFn name ret) as [.mk .block asb ss])
        (expandParentFn env rec cx name ret as asb ss).1
        (expandParentFn env rec cx name ret as asb ss).2) := by
  have hk := fnAnalysis_keeps (env := env) cx ret (.mk .block asb ss)
  have many1 : ∀ {vk cx n cx' ks}, Run env (many vk {} cx [n] cx' ks) → ∃ n', ks = [n'] := by
    intro vk cx n cx' ks h
    cases h with
    | cons h1 h2 => cases h2; exact ⟨_, rfl⟩
  unfold expandParentFn at h ⊢
  dsimp only at h ⊢
  generalize hcx1 : fnAnalysis env cx ret (.mk .block asb ss) = cx1 at *
  split
  · rename_i hd
    simp only [hd, if_true] at h
    obtain ⟨h1, ks', h2, h3⟩ := dummyWalk_run hr _ _ h
    rw [h3]
    obtain ⟨b', rfl⟩ := many1 h2
    exact ⟨hk h1, .stmtFnDummy hcx1 hd h2⟩
  · rename_i hd
    simp only [hd, if_false, Bool.false_eq_true] at h
    have hd : cx1.isDummy = false := by simpa using hd
    cases ss with
    | nil =>
      exfalso
      simp only [List.isEmpty_nil, if_true] at h
      split at h
      · exact Keeps.not_error (dummyWalk_run hr _ _ h).1
      · have : Clean (walk (rec .visitor {}) (cx1.error .emptyFn)
            (.mk (.iFn name ret) as [.mk .block asb []])).1 := by
          split at h <;> rename_i hb _ <;>
          · have := congrArg Prod.fst hb
            simp only at this
            rw [← this] at h
            exact (build_clean h).1.1
        obtain ⟨h1, _⟩ := walk_run hr _ _ _ _ this
        exact Keeps.not_error h1
    | cons s ss =>
      simp only [List.isEmpty_cons, Bool.false_eq_true, if_false] at h ⊢
      have hk2 := childLast_keeps' (s :: ss) cx1
      split
      · rename_i hx
        simp only [hx, if_true] at h
        obtain ⟨h1, ks', h2, h3⟩ := dummyWalk_run hr _ _ h
        rw [h3]
        obtain ⟨b', rfl⟩ := many1 h2
        exact ⟨hk (hk2 h1), .stmtFnExit hcx1 hd (by simp) hx h1 h2⟩
      · rename_i hx
        simp only [hx, if_false, Bool.false_eq_true] at h
        have hx : (childLast cx1 (s :: ss)).1.analysisExit env = false := by simpa using hx
        generalize hw : walk (rec .visitor {}) (childLast cx1 (s :: ss)).1
          (.mk (.iFn name ret) as [.mk .block asb (childLast cx1 (s :: ss)).2]) = w at h ⊢
        have hcb : Clean w.1.build.1 := by
          split at h <;> rename_i hb _ <;>
          · have := congrArg Prod.fst hb
            simp only at this
            rw [this]; exact h
        obtain ⟨hb1, hb2, hb3⟩ := build_clean hcb
        have hcw : Clean (walk (rec .visitor {}) (childLast cx1 (s :: ss)).1
          (.mk (.iFn name ret) as [.mk .block asb (childLast cx1 (s :: ss)).2])).1 := by
          rw [hw]; exact hb1.1
        obtain ⟨h1, ks', h2, h3⟩ := walk_run hr _ _ _ _ hcw
        rw [hw] at h2 h3
        obtain ⟨b', rfl⟩ := many1 h2
        refine ⟨hk (hk2 h1), ?_⟩
        have key := Run.stmtFn (name := name) (as := as) hcx1 hd (by simp) hx h1 h2 hb1
        have h3' : w.2 = .mk (.iFn name ret) as [b'] := h3
        rw [← h3'] at key
        unfold builtFn at key
        clear h hcw
        by_cases hv : w.1.variants.isEmpty = true
        · simp only [hv, if_true] at hb3 key
          split
          · rename_i heq hn
            rw [heq] at hb3; cases hb3
          · rename_i heq hn
            rw [heq] at hb2
            simp only at hb2
            subst hb2
            exact key
        · simp only [hv, if_false, Bool.false_eq_true] at hb3 key
          split
          · rename_i heq hn
            rw [heq] at hb2 hb3
            simp only [Option.some.injEq] at hb2 hb3
            subst hb2 hb3
            rw [hn] at key
            exact key
          · rename_i o heq hno
            have : w.1.build = (w.1, some w.1.buildEnum) := Prod.ext hb2 hb3
            rw [this] at heq
            obtain ⟨rfl, rfl⟩ := Prod.mk.inj heq
            split at key
            · rename_i hw2
              exact absurd rfl (hno _ _ _ _ _ hw2)
            · exact key

theorem expandParentStmt_run (cx : Cx) (n : Node)
    (h : Clean (expandParentStmt env rec cx n).1) : Clean cx ∧
      Run env (onStmt cx n (expandParentStmt env rec cx n).1
        (expandParentStmt env rec cx n).2) := by
  unfold expandParentStmt at h ⊢
  split at h
  · rename_i semi as e
    obtain ⟨h1, h2⟩ := expandParentExpr_run hr _ _ _ h
    exact ⟨h1, .stmtExpr h2⟩
  · exact expandParentLocal_run hr _ _ _ _ h
  · exact expandParentFn_run hr _ _ _ _ _ _ h
  · exact absurd h Keeps.not_error
  · rename_i h1 h2 h3 h4
    refine ⟨h, .stmtInert ?_ ?_ ?_ ?_ h⟩
    · intro i hi
      cases n with
      | mk k as ks => simp only [Node.kind] at hi; subst hi; exact h4 _ _ _ rfl
    · intro p hp
      cases n with
      | mk k as ks => simp only [Node.kind] at hp; subst hp; exact h2 _ _ _ rfl
    · rintro b as e rfl; exact h1 _ _ _ rfl
    · rintro nm r as asb ss rfl; exact h3 _ _ _ _ _ rfl

omit hr in
theorem makeChild_clean {cx cx1 ch : Cx} {h : Nat} {toks : List Tok}
    (hm : cx.makeChild h toks = (cx1, .ok ch)) (hc1 : Clean cx1) (hch : Clean ch) : Clean cx := by
  unfold Cx.makeChild at hm
  simp only [Prod.mk.injEq] at hm
  obtain ⟨h1, h2⟩ := hm
  obtain ⟨_, _, _, _, _, _, he, _⟩ := new_args h2
  have hp : (cx.assert cx.hasChild .makeChildNoChild).panics = [] := by
    have := hc1.2; rw [← h1] at this; exact this
  have he' : (cx.assert cx.hasChild .makeChildNoChild).errs = [] := by
    rw [← he]; exact hch.1
  exact Keeps.assert _ _ _ ⟨he', hp⟩

/-- The middle part of the visit of an expression. -/
theorem vsVisitExpr_run (vk : VK) (sc : Scope) (cx : Cx) (n : Node) (semi : Bool)
    (h : Clean (vsVisitExpr env rec vk sc cx n semi).1) : Clean cx ∧
      ((n.findRemoveAttr NAME = none ∧
        ∃ ks, Run env (many vk sc cx n.sub (vsVisitExpr env rec vk sc cx n semi).1 ks) ∧
          (vsVisitExpr env rec vk sc cx n semi).2 = n.rebuild ks) ∨
      ∃ attr n1 toks cx1 ch cx2 ks ch' n3, n.findRemoveAttr NAME = some (attr, n1) ∧
        attr.form = .list toks ∧ cx.makeChild (env.hash n1) toks = (cx1, .ok ch) ∧
        Clean cx1 ∧ Clean ch ∧ Run env (many vk sc cx1 n1.sub cx2 ks) ∧ Clean cx2 ∧
        Run env (onExpr semi ch (n1.rebuild ks) ch' n3) ∧ Clean ch' ∧ Clean (cx2.joinChild ch') ∧
        Ran env semi ch (n1.rebuild ks) ch' n3 ∧ vsVisitExpr env rec vk sc cx n semi = (cx2.joinChild ch', n3)) := by
  unfold vsVisitExpr at h ⊢
  split
  · rename_i hf
    simp only [hf] at h
    obtain ⟨h1, ks, h2, h3⟩ := walk_run hr vk sc n cx h
    exact ⟨h1, .inl ⟨by simpa using hf, ks, h2, h3⟩⟩
  · rename_i attr n1 hf
    simp only [hf] at h
    split
    · rename_i toks htoks
      simp only [htoks] at h
      generalize hm : cx.makeChild (env.hash n1) toks = m at h ⊢
      obtain ⟨cx1, r⟩ := m
      cases r with
      | error e => exact absurd h Keeps.not_error
      | ok ch =>
        dsimp only at h ⊢
        obtain ⟨h1, h2⟩ := joinChild_clean h
        obtain ⟨h3, ks, h4, h5⟩ := walk_run hr vk sc n1 cx1 h1
        obtain ⟨h6, h7⟩ := expandParentExpr_run hr _ _ _ h2
        rw [h5] at h7 h2 h ⊢
        exact ⟨makeChild_clean hm h3 h6, .inr ⟨attr, n1, toks, cx1, ch, _, ks, _, _, hf, htoks,
          hm, h3, h6, h4, h1, h7, h2, h, by obtain ⟨f, rfl⟩ := hr.eq; exact ⟨f, rfl⟩, rfl⟩⟩
    · rename_i hne
      exfalso
      split at h
      · rename_i toks htoks; exact hne toks htoks
      · exact Keeps.not_error h

omit hr in
theorem nestedStep_anyAttr {sc : Scope} {cx : Cx} {n : Node} {s : String} (hs : s ≠ NESTED)
    (hk : ∀ b, n.kind ≠ .sExpr b) : (nestedStep sc cx n).2.anyAttr s = n.anyAttr s := by
  have hrem : ∀ {a n'}, n.findRemoveAttr NESTED = some (a, n') → n'.anyAttr s = n.anyAttr s := by
    intro a n' hf
    obtain ⟨h1, h2, _, l1, l2, h3, rfl⟩ := Node.findRemoveAttr_some hf
    cases n with
    | mk k as ks =>
      simp only [Node.kind, Node.rawAttrs, Node.kids] at h1 h3 ⊢
      subst h3
      simp only [Node.anyAttr, Node.attrs_eq h1, anyAttr, List.any_append, List.any_cons]
      have : a.is s = false := by
        cases hc : a.is s with
        | false => rfl
        | true =>
          exfalso; apply hs
          unfold Attr.is Path.isIdent at h2 hc
          split at h2
          · rename_i i heq1 heq2
            simp only [heq1, heq2] at hc
            simp only [beq_iff_eq] at h2 hc
            rw [← h2, ← hc]
          · cases h2
      rw [this, Bool.false_or]
  unfold nestedStep
  split
  · rfl
  · split
    · rename_i a n' hf
      rw [← hrem hf]
      unfold visitNested
      dsimp only
      have hk' : n'.kind = n.kind := by
        obtain ⟨_, _, _, _, _, _, rfl⟩ := Node.findRemoveAttr_some hf; rfl
      split
      · obtain ⟨h1, h2⟩ := childExpr_top (cx.assert (!sc.foreign) .nestedForeign) n'
        exact Node.anyAttr_congr h1 h2 (by rw [hk']; exact hk)
      · rfl
    · rfl


omit hr in
theorem nestedStep_kind (sc : Scope) (cx : Cx) (n : Node) : (nestedStep sc cx n).2.kind = n.kind := by
  unfold nestedStep
  split
  · rfl
  · split
    · rename_i hf
      rw [visitNested_kind, findRemoveAttr_kind hf]
    · rfl

omit hr in
theorem visitMode_sExpr {sc : Scope} {cx : Cx} {n : Node} (b : Bool)
    (h : (visitMode sc cx n).2.kind = .sExpr b) : n.kind = .sExpr b := by
  obtain ⟨_, hk | ⟨_, _, h3⟩⟩ := visitMode_top sc cx n
  · rw [← hk, h]
  · rw [h3] at h; cases h

omit hr in
theorem pre_sExpr {vk : VK} {sc : Scope} {cx : Cx} {n : Node} (b : Bool)
    (h : (pre vk sc cx n).2.kind = .sExpr b) : n.kind = .sExpr b := by
  unfold pre at h
  split at h
  · rw [nestedStep_kind] at h
    exact visitMode_sExpr b h
  · exact h

omit hr in
theorem pre_anyAttr {vk : VK} {sc : Scope} {cx : Cx} {n : Node} {s : String} (hs : s ≠ NESTED)
    (hk : ∀ b, n.kind ≠ .sExpr b) : (pre vk sc cx n).2.anyAttr s = n.anyAttr s := by
  unfold pre
  split
  · rw [nestedStep_anyAttr hs fun b h => hk b (visitMode_sExpr b h), visitMode_anyAttr _ _ _ _ hk]
  · rfl

omit hr in
theorem anyAttr_of_none {n : Node} {s : String} (h : n.findRemoveAttr s = none)
    (hk : ∀ b, n.kind ≠ .sExpr b) : n.anyAttr s = false := by
  cases n with
  | mk k as ks =>
    simp only [Node.findRemoveAttr] at h
    split at h
    · rename_i ha
      split at h
      · cases h
      · rename_i hf
        simp only [Node.anyAttr, Node.attrs_eq ha, AutoEnums.anyAttr]
        exact findRemove_none.1 hf
    · rename_i ha
      unfold Node.anyAttr Node.attrs
      split
      · rename_i heq; cases heq; exact absurd rfl (hk _)
      · rename_i heq; cases heq; simp [ha, AutoEnums.anyAttr]

omit hr in
theorem NAME_ne : NAME ≠ NESTED := by decide

theorem expr_run (vk : VK) (sc : Scope) (semi : Bool) (cx : Cx) (n : Node)
    (h : Clean (post vk (enter vk sc n)
      (vsVisitExpr env rec vk (enter vk sc n) (pre vk (enter vk sc n) cx n).1
        (pre vk (enter vk sc n) cx n).2 semi).1
      (vsVisitExpr env rec vk (enter vk sc n) (pre vk (enter vk sc n) cx n).1
        (pre vk (enter vk sc n) cx n).2 semi).2).1) :
    Clean cx ∧ Run env (expr vk sc semi cx n
      (post vk (enter vk sc n)
      (vsVisitExpr env rec vk (enter vk sc n) (pre vk (enter vk sc n) cx n).1
        (pre vk (enter vk sc n) cx n).2 semi).1
      (vsVisitExpr env rec vk (enter vk sc n) (pre vk (enter vk sc n) cx n).1
        (pre vk (enter vk sc n) cx n).2 semi).2).1
      (post vk (enter vk sc n)
      (vsVisitExpr env rec vk (enter vk sc n) (pre vk (enter vk sc n) cx n).1
        (pre vk (enter vk sc n) cx n).2 semi).1
      (vsVisitExpr env rec vk (enter vk sc n) (pre vk (enter vk sc n) cx n).1
        (pre vk (enter vk sc n) cx n).2 semi).2).2) := by
  have h1 := post_keeps _ _ _ _ h
  obtain ⟨h2, h3⟩ := vsVisitExpr_run hr _ _ _ _ _ h1
  have h4 := pre_keeps _ _ _ _ h2
  refine ⟨h4, ?_⟩
  rcases h3 with ⟨hn, ks, hr1, heq⟩ | ⟨attr, n1, toks, cx1, ch, cx2, ks, ch', n3, ha, htoks, hm, hc1,
    hch, hr1, hc2, hr2, hch', hj, hran, heq⟩
  · rw [heq] at h ⊢
    refine .plain h4 h2 ?_ hn hr1 h1 h
    intro hany
    by_cases hs : ∃ b, n.kind = .sExpr b
    · exact hs
    · have hs : ∀ b, n.kind ≠ .sExpr b := fun b hb => hs ⟨b, hb⟩
      have := anyAttr_of_none hn fun b hb => hs b (pre_sExpr b hb)
      rw [pre_anyAttr NAME_ne hs, hany] at this
      cases this
  · rw [heq] at h h1 ⊢
    refine .child h4 h2 ?_ ha htoks hm hc1 hch hr1 hc2 hr2 hch' hj h hran
    obtain ⟨hk, _, hany, _⟩ := Node.findRemoveAttr_some ha
    rw [pre_anyAttr NAME_ne] at hany
    · exact hany
    · intro b hb
      cases n with
      | mk k as ks =>
        simp only [Node.kind] at hb
        subst hb
        have : (pre vk (enter vk sc (.mk (.sExpr b) as ks)) cx (.mk (.sExpr b) as ks)).2.kind =
            .sExpr b := by
          unfold pre
          split
          · rw [nestedStep_kind]
            obtain ⟨_, hk' | ⟨_, h', _⟩⟩ := visitMode_top
              (enter .visitor sc (.mk (.sExpr b) as ks)) (seen cx (.mk (.sExpr b) as ks))
              (.mk (.sExpr b) as ks)
            · exact hk'
            · cases h'
          · rfl
        rw [this] at hk
        cases hk

theorem visitExpr_run (sc : Scope) (cx : Cx) (n : Node) (semi : Bool) (he : cx.hasError = false)
    (h : Clean (visitExpr env rec sc cx n semi).1) : Clean cx ∧
      Run env (expr .visitor sc semi cx n (visitExpr env rec sc cx n semi).1
        (visitExpr env rec sc cx n semi).2) := by
  have key : visitExpr env rec sc cx n semi = post .visitor (enter .visitor sc n)
      (vsVisitExpr env rec .visitor (enter .visitor sc n) (pre .visitor (enter .visitor sc n) cx n).1
        (pre .visitor (enter .visitor sc n) cx n).2 semi).1
      (vsVisitExpr env rec .visitor (enter .visitor sc n) (pre .visitor (enter .visitor sc n) cx n).1
        (pre .visitor (enter .visitor sc n) cx n).2 semi).2 := by
    have ha : cx.assert (!cx.hasError) .visitAfterError = cx := by simp [Cx.assert, he]
    unfold visitExpr
    rw [ha]
    rfl
  rw [key] at h ⊢
  exact expr_run hr _ _ _ _ _ h

theorem dummyVisit_run (sc : Scope) (cx : Cx) (n : Node) (semi : Bool)
    (h : Clean (vsVisitExpr env rec .dummy sc (seen cx n) n semi).1) : Clean cx ∧
      Run env (expr .dummy sc semi cx n (vsVisitExpr env rec .dummy sc (seen cx n) n semi).1
        (vsVisitExpr env rec .dummy sc (seen cx n) n semi).2) :=
  expr_run hr .dummy sc semi cx n h

/-- Arms and `let` statements. -/
theorem part_run (vk : VK) (sc : Scope) (cx : Cx) (n : Node)
    (h : Clean (postSub vk sc (walk (rec vk sc) (preSub vk sc cx n).1 (preSub vk sc cx n).2).1
      (walk (rec vk sc) (preSub vk sc cx n).1 (preSub vk sc cx n).2).2).1) :
    Clean cx ∧ Run env (part vk sc cx n
      (postSub vk sc (walk (rec vk sc) (preSub vk sc cx n).1 (preSub vk sc cx n).2).1
        (walk (rec vk sc) (preSub vk sc cx n).1 (preSub vk sc cx n).2).2).1
      (postSub vk sc (walk (rec vk sc) (preSub vk sc cx n).1 (preSub vk sc cx n).2).1
        (walk (rec vk sc) (preSub vk sc cx n).1 (preSub vk sc cx n).2).2).2) := by
  have h1 := postSub_keeps _ _ _ _ h
  obtain ⟨h2, ks, h3, h4⟩ := walk_run hr _ _ _ _ h1
  have h5 := preSub_keeps _ _ _ _ h2
  rw [h4] at h ⊢
  exact ⟨h5, .part h5 h2 h3 h1 h⟩

omit hr in
theorem not_clean_of_hasError {cx : Cx} (h : cx.hasError = true) : ¬Clean cx := by
  intro hc; rw [hc.hasError] at h; cases h

theorem visitArm_run (sc : Scope) (cx : Cx) (n : Node) {p : String} (hk : n.kind = .arm p)
    (h : Clean (visitArm rec sc cx n).1) : Clean cx ∧
      Run env (part .visitor sc cx n (visitArm rec sc cx n).1 (visitArm rec sc cx n).2) := by
  by_cases he : cx.hasError = true
  · unfold visitArm at h
    rw [if_pos he] at h
    exact absurd h (not_clean_of_hasError he)
  · have key : visitArm rec sc cx n = postSub .visitor sc
        (walk (rec .visitor sc) (preSub .visitor sc cx n).1 (preSub .visitor sc cx n).2).1
        (walk (rec .visitor sc) (preSub .visitor sc cx n).1 (preSub .visitor sc cx n).2).2 := by
      unfold visitArm
      rw [if_neg he]
      have : (if sc.foreign then (cx, n) else
        match n.findRemoveAttr NESTED with
        | some (a, .mk (.arm p) as [b]) =>
          let r := visitNested sc cx b a; (r.1, .mk (.arm p) as [r.2])
        | some (a, .mk (.arm p) as [g, b]) =>
          let r := visitNested sc cx b a; (r.1, .mk (.arm p) as [g, r.2])
        | some (_, n) => (cx, n)
        | none => (cx, n)) = preSub .visitor sc cx n := by
        unfold preSub
        dsimp only
        split
        · rfl
        · cases hf : n.findRemoveAttr NESTED with
          | none => rfl
          | some r =>
            obtain ⟨a, n'⟩ := r
            have hk' := findRemoveAttr_kind hf
            rw [hk] at hk'
            cases n' with
            | mk k as ks =>
              simp only [Node.kind] at hk'
              subst hk'
              rcases ks with _ | ⟨b, _ | ⟨g, _ | _⟩⟩ <;> rfl
      rw [← this]
      rfl
    rw [key] at h ⊢
    exact part_run hr _ _ _ _ h

theorem visitLocal_run (vk : VK) (sc : Scope) (cx : Cx) (n : Node) {p : LetPat}
    (hk : n.kind = .sLocal p) (h : Clean (visitLocal rec vk sc cx n).1) : Clean cx ∧
      Run env (part vk sc cx n (visitLocal rec vk sc cx n).1 (visitLocal rec vk sc cx n).2) := by
  cases vk with
  | dummy => exact part_run hr .dummy sc cx n h
  | visitor =>
    by_cases he : cx.hasError = true
    · simp only [visitLocal] at h
      rw [if_pos he] at h
      exact absurd h (not_clean_of_hasError he)
    · have key : visitLocal rec .visitor sc cx n = postSub .visitor sc
          (walk (rec .visitor sc) (preSub .visitor sc cx n).1 (preSub .visitor sc cx n).2).1
          (walk (rec .visitor sc) (preSub .visitor sc cx n).1 (preSub .visitor sc cx n).2).2 := by
        simp only [visitLocal]
        rw [if_neg he]
        have : (if sc.foreign then (cx, n) else
          match n.findRemoveAttr NESTED with
          | some (a, .mk (.sLocal p) as (e :: els)) =>
            let r := visitNested sc cx e a
            (r.1, .mk (.sLocal p) as (r.2 :: els))
          | some (_, n) => (cx, n)
          | none => (cx, n)) = preSub .visitor sc cx n := by
          unfold preSub
          dsimp only
          split
          · rfl
          · cases hf : n.findRemoveAttr NESTED with
            | none => rfl
            | some r =>
              obtain ⟨a, n'⟩ := r
              have hk' := findRemoveAttr_kind hf
              rw [hk] at hk'
              cases n' with
              | mk k as ks =>
                simp only [Node.kind] at hk'
                subst hk'
                rcases ks with _ | ⟨b, ks⟩ <;> rfl
        rw [← this]
        rfl
      rw [key] at h ⊢
      exact part_run hr _ _ _ _ h

theorem vsVisitStmt_local_run (vk : VK) (sc : Scope) (cx : Cx) (n : Node) {p : LetPat}
    (hk : n.kind = .sLocal p)
    (h : Clean (vsVisitStmt env rec vk (enterS vk sc n) (seen cx n) n).1) : Clean cx ∧
      Run env (one vk sc cx n (vsVisitStmt env rec vk (enterS vk sc n) (seen cx n) n).1
        (vsVisitStmt env rec vk (enterS vk sc n) (seen cx n) n).2) := by
  have hns : ∀ b, n.kind ≠ .sExpr b := by rw [hk]; rintro b ⟨⟩
  have keep : Keeps cx (seen cx n) := .same (seen_same cx n).1 (seen_same cx n).2
  have hshape : ∃ as ks, n = .mk (.sLocal p) as ks := by
    cases n with
    | mk k as ks => simp only [Node.kind] at hk; subst hk; exact ⟨_, _, rfl⟩
  obtain ⟨as, ks, rfl⟩ := hshape
  unfold vsVisitStmt at h ⊢
  dsimp only at h ⊢
  generalize hnn : Node.mk (.sLocal p) as ks = n at *
  cases hf : n.findRemoveAttr NAME with
  | none =>
    simp only [hf] at h ⊢
    have hany := anyAttr_of_none hf hns
    have hs1 : enterS vk sc n = sc := by unfold enterS; cases vk <;> simp [hany]
    have hs2 : seen cx n = cx := by unfold seen; simp [hany]
    rw [hs1, hs2] at h ⊢
    obtain ⟨h1, h2⟩ := visitLocal_run hr _ _ _ _ hk h
    exact ⟨h1, .oneLocal hk hany h2⟩
  | some r =>
    obtain ⟨attr, n1⟩ := r
    simp only [hf] at h ⊢
    have hk1 : n1.kind = .sLocal p := by rw [findRemoveAttr_kind hf, hk]
    have hany := (Node.findRemoveAttr_some hf).2.2.1
    have body : ∀ toks, childToks attr.form = some toks → ∀ r : Cx × Node,
        r = (match ((seen cx n).makeChild (env.hash n1) toks).2 with
          | .error e => ((visitLocal rec vk (enterS vk sc n)
              ((seen cx n).makeChild (env.hash n1) toks).1 n1).1.error e,
              (visitLocal rec vk (enterS vk sc n) ((seen cx n).makeChild (env.hash n1) toks).1 n1).2)
          | .ok child => ((visitLocal rec vk (enterS vk sc n)
              ((seen cx n).makeChild (env.hash n1) toks).1 n1).1.joinChild
              (expandParentStmt env rec child (visitLocal rec vk (enterS vk sc n)
                ((seen cx n).makeChild (env.hash n1) toks).1 n1).2).1,
              (expandParentStmt env rec child (visitLocal rec vk (enterS vk sc n)
                ((seen cx n).makeChild (env.hash n1) toks).1 n1).2).2)) →
        Clean r.1 → Clean cx ∧ Run env (one vk sc cx n r.1 r.2) := by
      intro toks ht r hreq h
      generalize hm : (seen cx n).makeChild (env.hash n1) toks = m at hreq
      obtain ⟨cx1, res⟩ := m
      cases res with
      | error e => subst hreq; exact absurd h Keeps.not_error
      | ok ch =>
        dsimp only at hreq
        subst hreq
        obtain ⟨h1, h2⟩ := joinChild_clean h
        obtain ⟨h3, h4⟩ := visitLocal_run hr _ _ _ _ hk1 h1
        obtain ⟨h5, h6⟩ := expandParentStmt_run hr _ _ h2
        have h7 := keep (makeChild_clean hm h3 h5)
        exact ⟨h7, .oneLocalChild hk hany h7 hf ht hm h3 h5 h4 h1 h6 h2 h
          (by obtain ⟨f, rfl⟩ := hr.eq; exact ⟨f, rfl⟩)⟩
    cases hfm : attr.form with
    | path =>
      simp only [hfm] at h ⊢
      refine body [] (by rw [hfm]; rfl) _ ?_ h
      generalize (seen cx n).makeChild (env.hash n1) [] = m
      obtain ⟨cx1, _ | _⟩ := m <;> rfl
    | list toks =>
      simp only [hfm] at h ⊢
      refine body toks (by rw [hfm]; rfl) _ ?_ h
      generalize (seen cx n).makeChild (env.hash n1) toks = m
      obtain ⟨cx1, _ | _⟩ := m <;> rfl
    | nameValue => simp only [hfm] at h; exact absurd h Keeps.not_error

omit hr in
theorem vsVisitStmt_inert {vk : VK} {sc : Scope} {cx : Cx} {n : Node}
    (h1 : ∀ p, n.kind ≠ .sLocal p) (h2 : ∀ b as e, n = .mk (.sExpr b) as [e] → False) :
    vsVisitStmt env rec vk sc cx n = (cx, n) := by
  unfold vsVisitStmt
  split
  · exact absurd rfl (h2 _ _ _)
  · exact absurd rfl (h1 _)
  · rfl

theorem step_run : RunRec env (step env rec) := by
  refine ⟨?_, by obtain ⟨f, rfl⟩ := hr.eq; exact ⟨f + 1, rfl⟩⟩
  intro vk sc cx n h
  have keep : Keeps cx (seen cx n) := .same (seen_same cx n).1 (seen_same cx n).2
  by_cases hE : n.kind.isExpr = true
  · cases vk with
    | visitor =>
      simp only [step, visitorStep, hE, if_true] at h ⊢
      by_cases he : cx.hasError = true
      · rw [if_pos he] at h; exact absurd h (not_clean_of_hasError he)
      · rw [if_neg he] at h ⊢
        obtain ⟨h1, h2⟩ := visitExpr_run hr _ _ _ _ (by simpa using he) h
        exact ⟨h1, .oneExpr hE h2⟩
    | dummy =>
      simp only [step, dummyStep, hE, if_true] at h ⊢
      by_cases he : cx.hasError = true
      · rw [if_pos he] at h; exact absurd h (not_clean_of_hasError he)
      · rw [if_neg he] at h ⊢
        obtain ⟨h1, h2⟩ := dummyVisit_run hr _ _ _ _ h
        exact ⟨h1, .oneExpr hE h2⟩
  by_cases hS : n.kind.isStmt = true
  · have main : cx.hasError = false → (∀ b as e, n = .mk (.sExpr b) as [e] → False) →
        Clean (vsVisitStmt env rec vk (enterS vk sc n) (seen cx n) n).1 → Clean cx ∧
        Run env (one vk sc cx n (vsVisitStmt env rec vk (enterS vk sc n) (seen cx n) n).1
        (vsVisitStmt env rec vk (enterS vk sc n) (seen cx n) n).2) := by
      intro _ hne hc
      by_cases hl : ∃ p, n.kind = .sLocal p
      · obtain ⟨p, hl⟩ := hl
        exact vsVisitStmt_local_run hr _ _ _ _ hl hc
      · have hl : ∀ p, n.kind ≠ .sLocal p := fun p hp => hl ⟨p, hp⟩
        rw [vsVisitStmt_inert hl hne] at hc ⊢
        exact ⟨keep hc, .oneInert hS hl hne (keep hc)⟩
    by_cases he : cx.hasError = true
    · exfalso
      cases vk with
      | visitor =>
        simp only [step, visitorStep, hE, hS, if_true, Bool.false_eq_true, if_false, visitStmt] at h
        rw [if_pos he] at h
        exact absurd h (not_clean_of_hasError he)
      | dummy =>
        simp only [step, dummyStep, hE, hS, if_true, Bool.false_eq_true, if_false] at h
        rw [if_pos he] at h
        exact absurd h (not_clean_of_hasError he)
    have he : cx.hasError = false := by simpa using he
    by_cases hx : ∃ b as e, n = .mk (.sExpr b) as [e]
    · obtain ⟨b, as, e, rfl⟩ := hx
      cases vk with
      | visitor =>
        simp only [step, visitorStep, hE, hS, if_true, Bool.false_eq_true, if_false, visitStmt, he]
          at h ⊢
        obtain ⟨h1, h2⟩ := visitExpr_run hr _ _ _ _ he h
        exact ⟨h1, .oneStmt h2⟩
      | dummy =>
        simp only [step, dummyStep, hE, hS, if_true, Bool.false_eq_true, if_false, he] at h ⊢
        have hse : (if (Node.mk (.sExpr b) as [e]).anyAttr NAME then { cx with hasChild := true }
            else cx) = seen cx e := rfl
        rw [hse] at h ⊢
        simp only [vsVisitStmt] at h ⊢
        obtain ⟨h1, h2⟩ := dummyVisit_run hr _ _ _ _ h
        exact ⟨h1, .oneStmt h2⟩
    · have hx : ∀ b as e, n = .mk (.sExpr b) as [e] → False := fun b as e h => hx ⟨b, as, e, h⟩
      have key : step env rec vk sc cx n =
          vsVisitStmt env rec vk (enterS vk sc n) (seen cx n) n := by
        cases vk with
        | visitor =>
          simp only [step, visitorStep, hE, hS, if_true, Bool.false_eq_true, if_false]
          unfold visitStmt
          rw [if_neg (by simp [he])]
          split
          · exact absurd rfl (hx _ _ _)
          · rfl
        | dummy =>
          simp only [step, dummyStep, hE, hS, if_true, Bool.false_eq_true, if_false, he]
          rfl
      rw [key] at h ⊢
      exact main he hx h
  · by_cases ha : ∃ p, n.kind = .arm p
    · obtain ⟨p, hp⟩ := ha
      cases vk with
      | visitor =>
        simp only [step, visitorStep, hp] at h ⊢
        obtain ⟨h1, h2⟩ := visitArm_run hr _ _ _ hp h
        exact ⟨h1, .oneArm hp h2⟩
      | dummy =>
        simp only [step, dummyStep, hE, hS, Bool.false_eq_true, if_false] at h ⊢
        obtain ⟨h1, h2⟩ := part_run hr .dummy sc cx n h
        exact ⟨h1, .oneArm hp h2⟩
    · have key : step env rec vk sc cx n = walk (rec vk sc) cx n := by
        cases vk with
        | visitor =>
          simp only [step, visitorStep, hE, hS, Bool.false_eq_true, if_false]
          split
          · rename_i p hp; exact absurd ⟨p, hp⟩ ha
          · rfl
        | dummy => simp only [step, dummyStep, hE, hS, Bool.false_eq_true, if_false]
      rw [key] at h ⊢
      obtain ⟨h1, ks, h2, h3⟩ := walk_run hr _ _ _ _ h
      rw [h3]
      exact ⟨h1, .oneBlock (by simpa using hE) (by simpa using hS) (fun p hp => ha ⟨p, hp⟩) h2⟩

end

theorem visit_run (env : Env) : ∀ f, RunRec env (visit env f) := by
  intro f
  induction f with
  | zero => exact ⟨fun vk sc cx n h => absurd h Keeps.not_panic, 0, rfl⟩
  | succ f ih => exact step_run ih

/-- Every successful expansion is a derivation. -/
theorem code_run {env : Env} {fuel h : Nat} {toks : List Tok} {input : Input} {out : Node}
    (hrun : autoEnum env fuel h toks input = .code out) :
    ∃ cx cx', Cx.new h toks true [] [] = .ok cx ∧ Clean cx ∧ Clean cx' ∧
      ((∃ n, input = .stmt n ∧ Run env (onStmt cx n cx' out)) ∨
       ∃ n, input = .expr n ∧ Run env (onExpr false cx n cx' out)) := by
  obtain ⟨cx, cx', h1, h2, h3, h4⟩ := autoEnum_code hrun
  refine ⟨cx, cx', h1, ?_⟩
  cases input with
  | stmt n =>
    simp only [expandInput, Option.some.injEq] at h2
    have := expandParentStmt_run (visit_run env fuel) cx n (by rw [h2]; exact ⟨h3, h4⟩)
    rw [h2] at this
    exact ⟨this.1, ⟨h3, h4⟩, .inl ⟨n, rfl, this.2⟩⟩
  | expr n =>
    simp only [expandInput, Option.some.injEq] at h2
    have := expandParentExpr_run (visit_run env fuel) cx n false (by rw [h2]; exact ⟨h3, h4⟩)
    rw [h2] at this
    exact ⟨this.1, ⟨h3, h4⟩, .inr ⟨n, rfl, this.2⟩⟩
  | invalid => cases h2

end AutoEnums
