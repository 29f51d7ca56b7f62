import Verif.Lemmas.Pads

/-! # Lemmas: adding statements commutes with the visitors (for C73) -/

set_option linter.unusedSimpArgs false

namespace AutoEnums

open Spec Fill

namespace Pad

variable {ξ : List Node}

section

variable {env env' : Env} (ht : env'.typeAnalysis = env.typeAnalysis)
  (hh : ∀ ξ n n', Pads ξ n n' → env'.hash n' = env.hash n)
  {rec rec' : Rec} (hrec : ∀ vk sc ξ c n n', Pads ξ n n' → Rel ξ (rec vk sc c n) (rec' vk sc c n'))
  (hq : ∀ vk sc c s, idleStmt s = true → rec' vk sc c s = (c, s))

include hrec in
theorem dummyExpr_rel (c : Cx) {n n' : Node} (h : Pads ξ n n') : Rel ξ (dummyExpr rec c n) (dummyExpr rec' c n') :=
  hrec _ _ _ _ _ _ h

include hrec hq in
theorem dummyWalk_rel (c : Cx) {n n' : Node} (h : Pads ξ n n') : Rel ξ (dummyWalk rec c n) (dummyWalk rec' c n') :=
  walk_rel (hrec .dummy {}) (hq .dummy {}) _ h

include ht in
theorem analysisExit_eq (c : Cx) : c.analysisExit env' = c.analysisExit env := by
  rw [Cx.analysisExit, Cx.analysisExit, ht]

include ht hrec in
theorem expandTarget_rel (c : Cx) {n n' : Node} (h : Pads ξ n n') :
    Rel ξ (expandTarget env rec c n) (expandTarget env' rec' c n') := by
  unfold expandTarget
  have hc := childExpr_rel c h
  simp only [analysisExit_eq ht, hc.1]
  split
  · exact dummyExpr_rel hrec _ hc.2
  · exact hrec _ _ _ _ _ _ hc.2

include ht hrec in
theorem expandExpr_rel (c : Cx) {n n' : Node} (h : Pads ξ n n') :
    Rel ξ (expandExpr env rec c n) (expandExpr env' rec' c n') := by
  have hT := expandTarget_rel ht hrec c h
  obtain ⟨k, as, ks⟩ := n
  obtain ⟨ks', rfl, hk, ho⟩ := inv h
  cases k <;> try exact hT
  case eClosure i =>
    have hk : PadsL false ξ ks ks' := hk
    cases hk with
    | nil => exact hT
    | cons hn hl =>
      cases hl with
      | cons _ _ => exact hT
      | nil =>
        rename_i b b'
        have hc : visitFn c b' = visitFn c b := fnCount_pads c hn false
        unfold expandExpr
        dsimp only
        split
        · rw [hc]
          have := expandTarget_rel ht hrec
            { c with mode := if (visitFn c b).try_ ≥ 2 then .try_ else .ret (visitFn c b).return_ } hn
          exact ⟨this.1, .mk rfl (.cons this.2 .nil)⟩
        · exact hT

include ht hrec in
theorem expandBuild_rel (c : Cx) {n n' : Node} (h : Pads ξ n n') :
    Rel ξ (expandBuild env rec c n) (expandBuild env' rec' c n') := by
  unfold expandBuild
  have hx := expandExpr_rel ht hrec c h
  simp only [hx.1]
  generalize (expandExpr env rec c n).1.build = r at *
  obtain ⟨c1, o⟩ := r
  cases o with
  | none => exact ⟨rfl, hx.2⟩
  | some item => exact ⟨rfl, to (.mk rfl (.cons .same (.cons (.mk rfl (.cons hx.2 .nil)) .nil))) (by simp)⟩

include ht hrec in
theorem expandParentExpr_rel (c : Cx) {n n' : Node} (h : Pads ξ n n') (semi : Bool) :
    Rel ξ (expandParentExpr env rec c n semi) (expandParentExpr env' rec' c n' semi) := by
  unfold expandParentExpr
  dsimp only
  generalize (if semi = true then { c with lastMode := VisitLastMode.never } else c) = c
  split
  · exact dummyExpr_rel hrec _ h
  · exact expandBuild_rel ht hrec _ h

include ht hrec hq in
theorem expandParentLocal_rel (c : Cx) (p : LetPat) (as : List Attr) {ks ks' : List Node} (h : PadsL false ξ ks ks') :
    Rel ξ (expandParentLocal env rec c p as ks) (expandParentLocal env' rec' c p as ks') := by
  unfold expandParentLocal
  have hl : localAnalysis env' c p = localAnalysis env c p := by unfold localAnalysis; rw [ht]
  rw [hl]
  generalize localAnalysis env c p = r
  obtain ⟨c1, p1⟩ := r
  dsimp only
  split
  · exact dummyWalk_rel hrec hq c1 (.mk rfl h)
  · cases h with
    | nil => exact ⟨rfl, Pads.same⟩
    | cons hn hl =>
      have := expandBuild_rel ht hrec c1 hn
      exact ⟨this.1, .mk rfl (.cons this.2 hl)⟩

include ht in
theorem fnAnalysis_pads (c : Cx) (ret : Option Ty) {b b' : Node} (h : Pads ξ b b') :
    fnAnalysis env' c ret b' = fnAnalysis env c ret b := by
  unfold fnAnalysis
  cases ret with
  | none => rfl
  | some ty =>
    have hc : visitFn c b' = visitFn c b := fnCount_pads c h false
    have hm : retMode c ty b' = retMode c ty b := by
      unfold retMode
      rw [hc]
    dsimp only
    rw [hm, ht]

include ht hrec hq in
theorem expandParentFn_rel (c : Cx) (name : String) (ret : Option Ty) (as asb : List Attr) {ss ss' : List Node}
    (h : PadsL true ξ ss ss') :
    Rel ξ (expandParentFn env rec c name ret as asb ss) (expandParentFn env' rec' c name ret as asb ss') := by
  have hfn : ∀ ss ss', PadsL true ξ ss ss' → Pads ξ (.mk (.iFn name ret) as [.mk .block asb ss])
      (.mk (.iFn name ret) as [.mk .block asb ss']) := fun ss ss' h => to (.mk rfl (.cons (.mk rfl h) .nil)) (by simp)
  unfold expandParentFn
  dsimp only
  rw [fnAnalysis_pads ht c ret (.mk rfl h : Pads ξ (.mk .block asb ss) (.mk .block asb ss'))]
  generalize fnAnalysis env c ret (.mk .block asb ss) = c
  split
  · exact dummyWalk_rel hrec hq _ (hfn _ _ h)
  · have h3 : RelL true ξ (if ss.isEmpty = true then (c.error .emptyFn, ss) else childLast c ss)
        (if ss'.isEmpty = true then (c.error .emptyFn, ss') else childLast c ss') := by
      rw [emptyL h]
      split
      · exact ⟨rfl, h⟩
      · exact childLast_rel c h
    generalize (if ss.isEmpty = true then (c.error .emptyFn, ss) else childLast c ss) = r at *
    generalize (if ss'.isEmpty = true then (c.error .emptyFn, ss') else childLast c ss') = r' at *
    obtain ⟨c1, ss1⟩ := r
    obtain ⟨c1', ss1'⟩ := r'
    obtain ⟨rfl, h3⟩ := h3
    dsimp only at h3 ⊢
    simp only [analysisExit_eq ht]
    split
    · exact dummyWalk_rel hrec hq _ (hfn _ _ h3)
    · have hb := hrec .visitor {} _ c1' _ _ (.mk rfl h3 : Pads ξ (.mk .block asb ss1) (.mk .block asb ss1'))
      have hw : ∀ (r : Rec) ss, walk (r .visitor {}) c1' (.mk (.iFn name ret) as [.mk .block asb ss]) =
          ((r .visitor {} c1' (.mk .block asb ss)).1, .mk (.iFn name ret) as [(r .visitor {} c1' (.mk .block asb ss)).2]) :=
        fun _ _ => rfl
      rw [hw, hw]
      generalize rec .visitor {} c1' (.mk .block asb ss1) = x at *
      generalize rec' .visitor {} c1' (.mk .block asb ss1') = x' at *
      obtain ⟨c2, kb, asx, l⟩ := x
      obtain ⟨c2', n2⟩ := x'
      obtain ⟨rfl, hn⟩ := hb
      obtain ⟨l', rfl, hl, -⟩ := inv hn
      dsimp only
      generalize c2'.build = o at *
      obtain ⟨c3, o⟩ := o
      cases o with
      | none => exact ⟨rfl, to (.mk rfl (.cons hn .nil)) (by simp)⟩
      | some item =>
        cases kb <;> try exact ⟨rfl, to (.mk rfl (.cons hn .nil)) (by simp)⟩
        case block => exact ⟨rfl, to (.mk rfl (.cons (.mk rfl (.cons .same hl)) .nil)) (by simp)⟩

include ht hrec hq in
theorem expandParentStmt_rel (c : Cx) {n n' : Node} (h : Pads ξ n n') :
    Rel ξ (expandParentStmt env rec c n) (expandParentStmt env' rec' c n') := by
  obtain ⟨k, as, ks⟩ := n
  obtain ⟨ks', rfl, hk, ho⟩ := inv h
  cases k <;> try exact ⟨rfl, h⟩
  case sExpr semi =>
    have hk : PadsL false ξ ks ks' := hk
    cases hk with
    | nil => exact ⟨rfl, h⟩
    | cons hn hl =>
      cases hl with
      | nil =>
        have := expandParentExpr_rel ht hrec c hn semi
        exact ⟨this.1, .mk rfl (.cons this.2 .nil)⟩
      | cons _ _ => exact ⟨rfl, h⟩
  case sLocal p => exact expandParentLocal_rel ht hrec hq c p as hk
  case iFn name ret =>
    have hk : PadsL false ξ ks ks' := hk
    cases hk with
    | nil => exact ⟨rfl, h⟩
    | cons hn hl =>
      rename_i b b' _ _
      obtain ⟨kb, asb, ss⟩ := b
      obtain ⟨ss', rfl, hs, -⟩ := inv hn
      cases hl with
      | nil =>
        cases kb <;> try exact ⟨rfl, h⟩
        case block => exact expandParentFn_rel ht hrec hq c name ret as asb (toL hs (by simp))
      | cons _ _ => cases kb <;> exact ⟨rfl, h⟩

include ht hh hrec hq in
theorem vsVisitExpr_rel (vk : VK) (sc : Scope) (c : Cx) {n n' : Node} (h : Pads ξ n n') (semi : Bool) :
    Rel ξ (vsVisitExpr env rec vk sc c n semi) (vsVisitExpr env' rec' vk sc c n' semi) := by
  unfold vsVisitExpr
  rcases findRemoveAttr h NAME with ⟨h1, h2⟩ | ⟨a, m, m', h1, h2, hm⟩ <;> rw [h1, h2]
  · exact walk_rel (hrec vk sc) (hq vk sc) c h
  · dsimp only
    have hw := fun c => walk_rel (hrec vk sc) (hq vk sc) c hm
    cases a.form with
    | list toks =>
      simp only [hh _ m m' hm]
      generalize c.makeChild (env.hash m) toks = mc
      obtain ⟨c1, e⟩ := mc
      have hw := hw c1
      dsimp only
      cases e with
      | error e => exact ⟨by dsimp only; rw [hw.1], hw.2⟩
      | ok child =>
        have hx := expandParentExpr_rel ht hrec child hw.2 semi
        exact ⟨by dsimp only; rw [hw.1, hx.1], hx.2⟩
    | _ => exact ⟨by dsimp only; rw [(hw c).1], (hw c).2⟩

theorem findRemoveAttrs_rel (sc : Scope) (c : Cx) {n n' : Node} (h : Pads ξ n n') :
    Rel ξ (findRemoveAttrs sc c n) (findRemoveAttrs sc c n') := by
  unfold findRemoveAttrs
  split
  · exact ⟨rfl, h⟩
  · dsimp only
    have h1 : ∀ (c : Cx) (n n' : Node), Pads ξ n n' → Rel ξ (match n.findRemoveAttr "rec" with
        | some (_, n) => (c.error .recRemoved, n)
        | none => (c, n)) (match n'.findRemoveAttr "rec" with
        | some (_, n) => (c.error .recRemoved, n)
        | none => (c, n')) := by
      intro c n n' h
      rcases findRemoveAttr h "rec" with ⟨h1, h2⟩ | ⟨a, m, m', h1, h2, hm⟩ <;> rw [h1, h2]
      · exact ⟨rfl, h⟩
      · exact ⟨rfl, hm⟩
    rcases findRemoveAttr h NEVER with ⟨h2, h3⟩ | ⟨a, m, m', h2, h3, hm⟩ <;> rw [h2, h3]
    · exact h1 c _ _ h
    · exact h1 _ _ _ hm

theorem visitNested_rel (sc : Scope) (c : Cx) {n n' : Node} (h : Pads ξ n n') (a : Attr) :
    Rel ξ (visitNested sc c n a) (visitNested sc c n' a) := by
  unfold visitNested
  dsimp only
  split
  · exact childExpr_rel _ h
  · exact ⟨rfl, h⟩

include hrec hq in
theorem visitLocal_rel (vk : VK) (sc : Scope) (c : Cx) {n n' : Node} (h : Pads ξ n n') :
    Rel ξ (visitLocal rec vk sc c n) (visitLocal rec' vk sc c n') := by
  unfold visitLocal
  cases vk with
  | dummy => exact walk_rel (hrec .dummy sc) (hq .dummy sc) c h
  | visitor =>
    dsimp only
    split
    · exact ⟨rfl, h⟩
    · have h2 : ∀ r r' : Cx × Node, Rel ξ r r' →
          Rel ξ (let w := walk (rec .visitor sc) r.1 r.2; findRemoveAttrs sc w.1 w.2)
          (let w := walk (rec' .visitor sc) r'.1 r'.2; findRemoveAttrs sc w.1 w.2) := by
        intro r r' hr
        have hw := walk_rel (hrec .visitor sc) (hq .visitor sc) r.1 hr.2
        dsimp only
        rw [hr.1, hw.1]
        exact findRemoveAttrs_rel sc _ hw.2
      split
      · exact h2 (c, n) (c, n') ⟨rfl, h⟩
      · rcases findRemoveAttr h NESTED with ⟨e1, e2⟩ | ⟨a, m, m', e1, e2, hm⟩ <;> rw [e1, e2]
        · exact h2 (c, n) (c, n') ⟨rfl, h⟩
        · have h3 := h2 (c, m) (c, m') ⟨rfl, hm⟩
          obtain ⟨k, as, ks⟩ := m
          obtain ⟨ks', rfl, hk, ho⟩ := inv hm
          cases k <;> try exact h3
          case sLocal p =>
            have hk : PadsL false ξ ks ks' := hk
            cases hk with
            | nil => exact h3
            | cons hn hl =>
              have := visitNested_rel sc c hn a
              exact h2 (_, _) (_, _) ⟨this.1, .mk rfl (.cons this.2 hl)⟩

include ht hh hrec hq in
theorem vsVisitStmt_rel (vk : VK) (sc : Scope) (c : Cx) {n n' : Node} (h : Pads ξ n n') :
    Rel ξ (vsVisitStmt env rec vk sc c n) (vsVisitStmt env' rec' vk sc c n') := by
  have hV := fun c => visitLocal_rel hrec hq vk sc c h
  have hA := findRemoveAttr h NAME
  obtain ⟨k, as, ks⟩ := n
  obtain ⟨ks', rfl, hk, ho⟩ := inv h
  cases k <;> try exact ⟨rfl, h⟩
  case sExpr semi =>
    have hk : PadsL false ξ ks ks' := hk
    cases hk with
    | nil => exact ⟨rfl, h⟩
    | cons hn hl =>
      cases hl with
      | nil =>
        have := vsVisitExpr_rel ht hh hrec hq vk sc c hn semi
        exact ⟨this.1, .mk rfl (.cons this.2 .nil)⟩
      | cons _ _ => exact ⟨rfl, h⟩
  case sLocal p =>
    unfold vsVisitStmt
    dsimp only
    rcases hA with ⟨h1, h2⟩ | ⟨a, m, m', h1, h2, hm⟩ <;> rw [h1, h2]
    · exact hV c
    · dsimp only
      have hw := fun c => visitLocal_rel hrec hq vk sc c hm
      have hS : ∀ toks, Rel ξ
          (let mc := c.makeChild (env.hash m) toks
            let w := visitLocal rec vk sc mc.1 m
            match mc.2 with
            | .error e => (w.1.error e, w.2)
            | .ok child =>
              let r := expandParentStmt env rec child w.2
              (w.1.joinChild r.1, r.2))
          (let mc := c.makeChild (env'.hash m') toks
            let w := visitLocal rec' vk sc mc.1 m'
            match mc.2 with
            | .error e => (w.1.error e, w.2)
            | .ok child =>
              let r := expandParentStmt env' rec' child w.2
              (w.1.joinChild r.1, r.2)) := by
        intro toks
        simp only [hh _ m m' hm]
        generalize c.makeChild (env.hash m) toks = mc
        obtain ⟨c1, e⟩ := mc
        have hw := hw c1
        dsimp only
        cases e with
        | error e => exact ⟨by dsimp only; rw [hw.1], hw.2⟩
        | ok child =>
          have hx := expandParentStmt_rel ht hrec hq child hw.2
          exact ⟨by dsimp only; rw [hw.1, hx.1], hx.2⟩
      cases a.form with
      | path => exact hS []
      | list toks => exact hS toks
      | nameValue => exact ⟨by dsimp only; rw [(hw c).1], (hw c).2⟩

theorem visitReturn_rel (sc : Scope) (c : Cx) {n n' : Node} (h : Pads ξ n n') :
    Rel ξ (visitReturn sc c n) (visitReturn sc c n') := by
  unfold visitReturn
  rw [anyEmptyAttr h]
  split
  · obtain ⟨k, as, ks⟩ := n
    obtain ⟨ks', rfl, hk, ho⟩ := inv h
    cases k <;> try exact ⟨rfl, h⟩
    case eReturn =>
      have := replaceBoxed_rel c hk
      exact ⟨this.1, .mk rfl this.2⟩
  · exact ⟨rfl, h⟩

theorem visitTry_rel (sc : Scope) (c : Cx) {n n' : Node} (h : Pads ξ n n') :
    Rel ξ (visitTry sc c n) (visitTry sc c n') := by
  unfold visitTry
  rw [anyEmptyAttr h]
  split
  · obtain ⟨k, as, ks⟩ := n
    obtain ⟨ks', rfl, hk, ho⟩ := inv h
    cases k <;> try exact ⟨rfl, h⟩
    case eTry =>
      have hk : PadsL false ξ ks ks' := hk
      cases hk with
      | nil => exact ⟨rfl, h⟩
      | cons hn hl =>
        cases hl with
        | nil =>
          simp only [isMarkerExpr_pads c hn]
          split
          · exact ⟨rfl, h⟩
          · exact ⟨rfl, .mk rfl (.cons hn (reflL _ _))⟩
        | cons _ _ => exact ⟨rfl, h⟩
  · exact ⟨rfl, h⟩

theorem visitMarker_rel (sc : Scope) (c : Cx) {n n' : Node} (h : Pads ξ n n') :
    Rel ξ (visitMarker sc c n) (visitMarker sc c n') := by
  unfold visitMarker
  generalize c.assert (!sc.foreign || c.marker != DEFAULT_MARKER) .markerForeign = c
  obtain ⟨k, as, ks⟩ := n
  obtain ⟨ks', rfl, hk, ho⟩ := inv h
  cases k <;> try exact ⟨rfl, h⟩
  case eMacro p t =>
    dsimp only
    split
    · have hk : PadsL false ξ ks ks' := hk
      cases hk with
      | nil => exact ⟨rfl, Pads.same⟩
      | cons hn hl =>
        cases hl with
        | nil =>
          dsimp only
          split
          · exact ⟨rfl, to hn (by simp)⟩
          · exact nextExprAttrs_rel c as (to hn (by simp))
        | cons _ _ =>
          rcases ho with ⟨e, -⟩ | e
          · exact ⟨rfl, to .same e.symm⟩
          · simp [argOk] at e
    · exact ⟨rfl, h⟩

theorem visitMode_rel (sc : Scope) (c : Cx) {n n' : Node} (h : Pads ξ n n') :
    Rel ξ (visitMode sc c n) (visitMode sc c n') := by
  unfold visitMode
  cases c.mode with
  | ret m => exact visitReturn_rel sc c h
  | try_ => exact visitTry_rel sc c h
  | default => exact ⟨rfl, h⟩

include ht hh hrec hq in
theorem visitExpr_rel (sc : Scope) (c : Cx) {n n' : Node} (h : Pads ξ n n') (semi : Bool) :
    Rel ξ (visitExpr env rec sc c n semi) (visitExpr env' rec' sc c n' semi) := by
  unfold visitExpr
  simp only [anyAttr h, kind h]
  generalize (if n.anyAttr NAME = true then { c.assert (!c.hasError) .visitAfterError with hasChild := true }
    else c.assert (!c.hasError) .visitAfterError) = c
  generalize ((if n.anyAttr NAME = true then { sc with foreign := true } else sc).check n.kind) = sc
  have hm := visitMode_rel sc c h
  generalize visitMode sc c n = r at *
  generalize visitMode sc c n' = r' at *
  obtain ⟨c1, n1⟩ := r
  obtain ⟨c1', n1'⟩ := r'
  obtain ⟨rfl, hm⟩ := hm
  dsimp only at hm ⊢
  have hT : ∀ r r' : Cx × Node, Rel ξ r r' → Rel ξ
      (let r := vsVisitExpr env rec .visitor sc r.1 r.2 semi
        if !sc.foreign || r.1.marker != DEFAULT_MARKER then
          let r := visitMarker sc r.1 r.2
          findRemoveAttrs sc r.1 r.2
        else r)
      (let r := vsVisitExpr env' rec' .visitor sc r'.1 r'.2 semi
        if !sc.foreign || r.1.marker != DEFAULT_MARKER then
          let r := visitMarker sc r.1 r.2
          findRemoveAttrs sc r.1 r.2
        else r) := by
    intro r r' hr
    have hv := vsVisitExpr_rel ht hh hrec hq .visitor sc r.1 hr.2 semi
    rw [hr.1]
    generalize vsVisitExpr env rec .visitor sc r.1 r.2 semi = x at *
    generalize vsVisitExpr env' rec' .visitor sc r.1 r'.2 semi = x' at *
    obtain ⟨c2, n2⟩ := x
    obtain ⟨c2', n2'⟩ := x'
    obtain ⟨rfl, hv⟩ := hv
    dsimp only at hv ⊢
    split
    · have hk := visitMarker_rel sc c2' hv
      rw [hk.1]
      exact findRemoveAttrs_rel sc _ hk.2
    · exact ⟨rfl, hv⟩
  by_cases hf : sc.foreign = true
  · simp only [hf, if_true] at hT ⊢
    exact hT (c1', n1) (c1', n1') ⟨rfl, hm⟩
  · simp only [hf, if_false, Bool.false_eq_true] at hT ⊢
    rcases findRemoveAttr hm NESTED with ⟨e1, e2⟩ | ⟨a, m, m', e1, e2, hm'⟩ <;> rw [e1, e2]
    · exact hT (c1', n1) (c1', n1') ⟨rfl, hm⟩
    · exact hT _ _ (visitNested_rel sc c1' hm' a)

include hrec hq in
theorem visitArm_rel (sc : Scope) (c : Cx) {n n' : Node} (h : Pads ξ n n') :
    Rel ξ (visitArm rec sc c n) (visitArm rec' sc c n') := by
  unfold visitArm
  split
  · exact ⟨rfl, h⟩
  · have h2 : ∀ r r' : Cx × Node, Rel ξ r r' →
        Rel ξ (let w := walk (rec .visitor sc) r.1 r.2; findRemoveAttrs sc w.1 w.2)
        (let w := walk (rec' .visitor sc) r'.1 r'.2; findRemoveAttrs sc w.1 w.2) := by
      intro r r' hr
      have hw := walk_rel (hrec .visitor sc) (hq .visitor sc) r.1 hr.2
      dsimp only
      rw [hr.1, hw.1]
      exact findRemoveAttrs_rel sc _ hw.2
    dsimp only
    split
    · exact h2 (c, n) (c, n') ⟨rfl, h⟩
    · rcases findRemoveAttr h NESTED with ⟨e1, e2⟩ | ⟨a, m, m', e1, e2, hm⟩ <;> rw [e1, e2]
      · exact h2 (c, n) (c, n') ⟨rfl, h⟩
      · have h3 := h2 (c, m) (c, m') ⟨rfl, hm⟩
        obtain ⟨k, as, ks⟩ := m
        obtain ⟨ks', rfl, hk, ho⟩ := inv hm
        cases k <;> try exact h3
        case arm p =>
          have hk : PadsL false ξ ks ks' := hk
          cases hk with
          | nil => exact h3
          | cons hn hl =>
            cases hl with
            | nil =>
              have := visitNested_rel sc c hn a
              exact h2 (_, _) (_, _) ⟨this.1, .mk rfl (.cons this.2 .nil)⟩
            | cons hb hl =>
              cases hl with
              | nil =>
                have := visitNested_rel sc c hb a
                exact h2 (_, _) (_, _) ⟨this.1, .mk rfl (.cons hn (.cons this.2 .nil))⟩
              | cons _ _ => exact h3

include ht hh hrec hq in
theorem visitStmt_rel (sc : Scope) (c : Cx) {n n' : Node} (h : Pads ξ n n') :
    Rel ξ (visitStmt env rec sc c n) (visitStmt env' rec' sc c n') := by
  have hV : Rel ξ (let isName := n.anyAttr NAME
      let sc := if isName then { sc with foreign := true } else sc
      let cx := if isName then { c with hasChild := true } else c
      vsVisitStmt env rec .visitor sc cx n) (let isName := n'.anyAttr NAME
      let sc := if isName then { sc with foreign := true } else sc
      let cx := if isName then { c with hasChild := true } else c
      vsVisitStmt env' rec' .visitor sc cx n') := by
    simp only [anyAttr h]
    exact vsVisitStmt_rel ht hh hrec hq .visitor _ _ h
  unfold visitStmt
  split
  · exact ⟨rfl, h⟩
  · obtain ⟨k, as, ks⟩ := n
    obtain ⟨ks', rfl, hk, ho⟩ := inv h
    cases k <;> try exact hV
    case sExpr semi =>
      have hk : PadsL false ξ ks ks' := hk
      cases hk with
      | nil => exact hV
      | cons hn hl =>
        cases hl with
        | nil =>
          have := visitExpr_rel ht hh hrec hq sc c hn semi
          exact ⟨this.1, .mk rfl (.cons this.2 .nil)⟩
        | cons _ _ => exact hV

include ht hh hrec hq in
theorem step_rel (vk : VK) (sc : Scope) (c : Cx) {n n' : Node} (h : Pads ξ n n') :
    Rel ξ (step env rec vk sc c n) (step env' rec' vk sc c n') := by
  cases vk with
  | visitor =>
    simp only [step, visitorStep, kind h]
    split
    · split
      · exact ⟨rfl, h⟩
      · exact visitExpr_rel ht hh hrec hq sc c h false
    · split
      · exact visitStmt_rel ht hh hrec hq sc c h
      · split
        · exact visitArm_rel hrec hq sc c h
        · exact walk_rel (hrec .visitor sc) (hq .visitor sc) c h
  | dummy =>
    simp only [step, dummyStep, kind h, anyAttr h]
    split
    · split
      · exact ⟨rfl, h⟩
      · exact vsVisitExpr_rel ht hh hrec hq .dummy sc _ h false
    · split
      · split
        · exact ⟨rfl, h⟩
        · exact vsVisitStmt_rel ht hh hrec hq .dummy sc _ h
      · exact walk_rel (hrec .dummy sc) (hq .dummy sc) c h

end

/-! ## Fuel -/

/-- The visitors that leave everything as it is where the fuel runs out. -/
abbrev idle (env : Env) : Nat → Rec := visitFrom (baseOf fun _ _ _ => true) env

theorem idle_still (env : Env) : ∀ (f : Nat) (vk : VK) (sc : Scope) (c : Cx) (n : Node),
    still (shut vk sc) n = true → idle env f vk sc c n = (c, n) := by
  intro f
  induction f with
  | zero => intro vk sc c n _; rfl
  | succ f ih =>
    intro vk sc c n hs
    exact step_still (D := depth n) (fun vk sc c m hm _ => ih vk sc c m hm) vk sc c n hs (Nat.le_refl _)

theorem idle_inert (env : Env) (f : Nat) (vk : VK) (sc : Scope) (c : Cx) (s : Node) (h : idleStmt s = true) :
    idle env f vk sc c s = (c, s) := idle_still env f vk sc c s (still_weaken (inert_still h))

theorem idle_rel {env env' : Env} (ht : env'.typeAnalysis = env.typeAnalysis)
    (hh : ∀ ξ n n', Pads ξ n n' → env'.hash n' = env.hash n) : ∀ (f : Nat) (vk : VK) (sc : Scope) (ξ : List Node) (c : Cx) (n n' : Node),
    Pads ξ n n' → Rel ξ (idle env f vk sc c n) (idle env' f vk sc c n') := by
  intro f
  induction f with
  | zero => intro vk sc ξ c n n' h; exact ⟨rfl, h⟩
  | succ f ih => intro vk sc ξ c n n' h; exact step_rel ht hh ih (idle_inert env' f) vk sc c h

end Pad

end AutoEnums
