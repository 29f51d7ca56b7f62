import Verif.Lemmas.Fill

/-! # Lemmas: replacing operands commutes with the visitors (for C70) -/

set_option linter.unusedSectionVars false
set_option linter.unusedSimpArgs false

namespace AutoEnums

open Spec

namespace Fill

variable {σ : String → Node}

mutual
theorem still_weaken : ∀ {n : Node} {cl : Bool}, still false n = true → still cl n = true := by
  intro n cl hn
  obtain ⟨k, as, ks⟩ := n
  cases cl with
  | false => exact hn
  | true =>
    rw [still] at hn ⊢
    simp only [Bool.and_eq_true] at hn ⊢
    refine ⟨⟨hn.1.1, ?_⟩, ?_⟩
    · have := hn.1.2
      cases k <;> simp_all [stillHere]
    · rw [Bool.true_or]
      have := hn.2
      rw [Bool.false_or] at this
      cases hc : closes k with
      | true => rw [hc] at this; exact this
      | false => rw [hc] at this; exact still_mono this
theorem still_mono : ∀ {l : List Node} {cl : Bool}, stillL false l = true → stillL cl l = true := by
  intro l cl hl
  match l with
  | [] => rfl
  | n :: ns =>
    rw [stillL, Bool.and_eq_true] at hl ⊢
    exact ⟨still_weaken hl.1, still_mono hl.2⟩
end

section

variable (h : ∀ s, operand (σ s) = true)
include h

theorem mapA_pair {f g : Cx → Node → Cx × Node} (hfg : ∀ c n, g c (fill σ n) = pair σ (f c n)) :
    ∀ (l : List Node) (c : Cx), mapA g c (fillL σ l) = pairL σ (mapA f c l) := by
  intro l
  induction l with
  | nil => intro c; rfl
  | cons n l ih => intro c; simp only [fillL_cons, mapA, hfg, pair, ih]; simp [pairL]

omit h in
theorem walk_hole {g : Cx → Node → Cx × Node} (c : Cx) (k : Kind) (as : List Attr) (ks : List Node)
    (hq : ∀ c, ∀ n ∈ ks, g c n = (c, n)) : walk g c (.mk k as ks) = (c, .mk k as ks) := by
  have : ∀ (l : List Node) (c : Cx), (∀ c, ∀ n ∈ l, g c n = (c, n)) → mapA g c l = (c, l) := by
    intro l
    induction l with
    | nil => intro c _; rfl
    | cons a l ih =>
      intro c hl
      rw [mapA, hl c a (by simp)]
      dsimp only
      rw [ih c fun c n hn => hl c n (by simp [hn])]
  rw [walk]
  split
  · rfl
  · rw [this ks c hq]

omit h in
theorem fill_like {k : Kind} {ks ks' : List Node} (hl : ks'.length = ks.length)
    (hf : ∀ as, fill σ (.mk k as ks) = .mk k as (fillL σ ks)) (hh : ¬ ∃ s, k = .eLit s ∧ ks = []) (as : List Attr) :
    fill σ (.mk k as ks') = .mk k as (fillL σ ks') := by
  rcases split_fill (σ := σ) k ks' with ⟨s, rfl, rfl⟩ | hf'
  · exact absurd ⟨s, rfl, List.length_eq_zero_iff.mp hl.symm⟩ hh
  · exact hf' as

omit h in
theorem mapA_length {g : Cx → Node → Cx × Node} : ∀ (l : List Node) (c : Cx), (mapA g c l).2.length = l.length := by
  intro l
  induction l with
  | nil => intro c; rfl
  | cons a l ih => intro c; simp [mapA, ih]

theorem walk_pair {f g : Cx → Node → Cx × Node} (hfg : ∀ c n, g c (fill σ n) = pair σ (f c n))
    (hq : ∀ s c, ∀ n ∈ (σ s).kids, g c n = (c, n))
    (c : Cx) (n : Node) : walk g c (fill σ n) = pair σ (walk f c n) := by
  obtain ⟨k, as, ks⟩ := n
  by_cases hh : ∃ s, k = .eLit s ∧ ks = []
  · obtain ⟨s, rfl, rfl⟩ := hh
    rw [fill_hole, walk_hole c _ as _ (hq s)]
    simp [walk, mapA, pair, fill_hole, Kind.isOpaque]
  · have hf : ∀ as, fill σ (.mk k as ks) = .mk k as (fillL σ ks) := (split_fill k ks).resolve_left hh
    rw [hf, walk, walk]
    split
    · rw [pair, hf]
    · simp only [mapA_pair h hfg]
      simp only [pair, pairL, fill_like (mapA_length ks c) hf hh]

mutual
theorem childExpr_pair (c : Cx) (n : Node) : childExpr c (fill σ n) = pair σ (childExpr c n) := by
  obtain ⟨k, as, ks⟩ := n
  rcases split_fill (σ := σ) k ks with ⟨t, rfl, rfl⟩ | hf
  · rw [fill_hole, operand_child c (h t)]
    have h1 : childExpr c (.mk (.eLit t) as []) = (c, .mk (.eLit t) as []) := by
      rw [childExpr.eq_def]; dsimp only; split <;> rfl
    rw [h1, pair, fill_hole]
  have hu := isUnreachable_fill h c (.mk k as ks)
  rw [hf] at hu
  rw [hf, childExpr.eq_def c, childExpr.eq_def c]
  dsimp only
  rw [hu]
  split
  · rw [pair, hf]
  · cases k <;> try (simp [pair, pairL, hf]; done)
    case eBlock l =>
      simp only [childLast_pair c ks]; simp [pair, pairL]
    case eUnsafe =>
      simp only [childLast_pair c ks]; simp [pair, pairL]
    case eMatch =>
      match ks with
      | [] => simp [pair]
      | s :: arms =>
        simp only [fillL_cons, mapA_pair h (wrapArm_pair h)]; simp [pair, pairL]
    case eIf =>
      have := visitIf_pair h (.mk .eIf as ks) c
      rw [fill_eIf] at this
      exact this
    case eLoop l =>
      simp only [loopVisitL_pair h]; simp [pair, pairL]
    case eMethodCall m =>
      match ks with
      | [] => simp [pair]
      | e :: args => simp only [fillL_cons, childExpr_pair c e]; simp [pair]
    case eParen =>
      match ks with
      | [] => simp [pair]
      | [e] => simp only [fillL_cons, fillL_nil, childExpr_pair c e]; simp [pair]
      | _ :: _ :: _ => simp [pair]
theorem childLast_pair (c : Cx) (l : List Node) : childLast c (fillL σ l) = pairL σ (childLast c l) := by
  match l with
  | [] => simp [childLast, pairL]
  | [.mk k as ks] =>
    rcases split_fill (σ := σ) k ks with ⟨t, rfl, rfl⟩ | hf
    · have hk := hole_kind h t
      simp only [fillL_cons, fillL_nil, fill_hole]
      rw [childLast]
      · simp [childLast, pairL, fill_hole]
      · intro _ _ he
        injection he with he
        rw [he] at hk
        cases hk
    cases k <;> try (simp [childLast, pairL, hf]; done)
    case sExpr semi =>
      cases semi
      · match ks with
        | [] => simp [childLast, pairL]
        | [e] => simp [childLast, pairL, childExpr_pair c e, pair]
        | _ :: _ :: _ => simp [childLast, pairL]
      · simp [childLast, pairL]
  | a :: b :: l =>
    have := childLast_pair c (b :: l)
    simp only [fillL_cons] at this ⊢
    rw [childLast, childLast, this]
    simp [pairL]
end

mutual
theorem fnCount_fill (c : Cx) (cl : Bool) (n : Node) : fnCount c cl (fill σ n) = fnCount c cl n := by
  obtain ⟨k, as, ks⟩ := n
  rcases split_fill (σ := σ) k ks with ⟨t, rfl, rfl⟩ | hf
  · rw [fill_hole, fnCount.eq_def, fnCount.eq_def]
    dsimp only
    have hk := hole_kind h t
    have hL := fun cl => still_countL c cl (still_mono (hole_still h t) : stillL cl (σ t).kids = true)
    revert hk
    cases (σ t).kind <;> simp [plainKind, hL, fnCountHere, Scope.check, Kind.isOpaque, fnCountL]
  · have hh : ∀ b, fnCountHere c b as k (fillL σ ks) = fnCountHere c b as k ks := by
      intro b
      cases k <;> try rfl
      case eTry =>
        match ks with
        | [] => simp
        | e :: _ => simp only [fillL_cons, fnCountHere, isMarkerExpr_fill h]
      case eReturn =>
        match ks with
        | [] => simp
        | e :: _ => simp only [fillL_cons, fnCountHere, isMarkerExpr_fill h]
    rw [hf, fnCount.eq_def c, fnCount.eq_def c]
    dsimp only
    rw [hh, fnCountL_fill c _ ks]
theorem fnCountL_fill (c : Cx) (cl : Bool) (l : List Node) : fnCountL c cl (fillL σ l) = fnCountL c cl l := by
  match l with
  | [] => rw [fillL_nil]
  | n :: ns => rw [fillL_cons, fnCountL, fnCountL, fnCount_fill c cl n, fnCountL_fill c cl ns]
end

/-! ## The visitors -/

omit h in
theorem item_fill {c c1 : Cx} {item : Node} (hb : c.build = (c1, some item)) : fill σ item = item := by
  have : item = c.buildEnum := by
    unfold Cx.build at hb
    split at hb
    · cases hb
    · split at hb
      · cases hb
      · split at hb
        · cases hb
        · cases hb; rfl
  rw [this]
  simp [Cx.buildEnum]

section

variable {env env' : Env} (ht : env'.typeAnalysis = env.typeAnalysis)
  (hh : ∀ n, env'.hash (fill σ n) = env.hash n)
  {rec rec' : Rec} (hrec : ∀ vk sc c n, rec' vk sc c (fill σ n) = pair σ (rec vk sc c n))
  (hq : ∀ vk sc s c, ∀ n ∈ (σ s).kids, rec' vk sc c n = (c, n))

include hrec hq in
theorem dummyExpr_pair (c : Cx) (n : Node) : dummyExpr rec' c (fill σ n) = pair σ (dummyExpr rec c n) := by
  unfold dummyExpr
  rw [hrec]

include hrec hq in
theorem dummyWalk_pair (c : Cx) (n : Node) : dummyWalk rec' c (fill σ n) = pair σ (dummyWalk rec c n) := by
  unfold dummyWalk
  exact walk_pair h (hrec .dummy {}) (hq .dummy {}) _ n

include ht hrec hq in
theorem expandTarget_pair (c : Cx) (n : Node) :
    expandTarget env' rec' c (fill σ n) = pair σ (expandTarget env rec c n) := by
  unfold expandTarget
  have hx : ∀ c : Cx, c.analysisExit env' = c.analysisExit env := by intro c; rw [Cx.analysisExit, Cx.analysisExit, ht]
  rw [childExpr_pair h]
  generalize childExpr c n = r
  obtain ⟨c, n⟩ := r
  simp only [pair, hx]
  split
  · exact dummyExpr_pair h hrec hq _ _
  · exact hrec _ _ _ _

include ht hrec hq in
theorem expandExpr_pair (c : Cx) (n : Node) :
    expandExpr env' rec' c (fill σ n) = pair σ (expandExpr env rec c n) := by
  have hT := expandTarget_pair h ht hrec hq c n
  obtain ⟨k, as, ks⟩ := n
  rcases split_fill (σ := σ) k ks with ⟨t, rfl, rfl⟩ | hf
  · rw [fill_hole] at hT ⊢
    have hk := hole_kind h t
    generalize (σ t).kind = k' at *
    cases k' <;> first | exact hT | cases hk
  rw [hf] at hT ⊢
  cases k <;> try exact hT
  case eClosure i =>
    match ks, hT with
    | [], hT => rw [fillL_nil] at hT ⊢; exact hT
    | [b], hT =>
      simp only [fillL_cons, fillL_nil] at hT ⊢
      unfold expandExpr
      dsimp only
      split
      · have hc : visitFn c (fill σ b) = visitFn c b := fnCount_fill h c false b
        rw [hc]
        have := expandTarget_pair h ht hrec hq
          { c with mode := if (visitFn c b).try_ ≥ 2 then .try_ else .ret (visitFn c b).return_ } b
        simp only [this]
        simp [pair]
      · exact hT
    | _ :: _ :: _, hT => simp only [fillL_cons] at hT ⊢; exact hT

include ht hrec hq in
theorem expandBuild_pair (c : Cx) (n : Node) :
    expandBuild env' rec' c (fill σ n) = pair σ (expandBuild env rec c n) := by
  unfold expandBuild
  simp only [expandExpr_pair h ht hrec hq, pair]
  have hi := fun c1 item => item_fill (σ := σ) (c := (expandExpr env rec c n).1) (c1 := c1) (item := item)
  generalize (expandExpr env rec c n).1.build = r at *
  obtain ⟨c1, o⟩ := r
  cases o with
  | none => rfl
  | some item => simp [buildExpr, hi c1 item rfl]

include ht hrec hq in
theorem expandParentExpr_pair (c : Cx) (n : Node) (semi : Bool) :
    expandParentExpr env' rec' c (fill σ n) semi = pair σ (expandParentExpr env rec c n semi) := by
  unfold expandParentExpr
  dsimp only
  generalize (if semi = true then { c with lastMode := VisitLastMode.never } else c) = c
  split
  · exact dummyExpr_pair h hrec hq _ _
  · exact expandBuild_pair h ht hrec hq _ _

include ht hrec hq in
theorem expandParentLocal_pair (c : Cx) (p : LetPat) (as : List Attr) (ks : List Node) :
    expandParentLocal env' rec' c p as (fillL σ ks) =
      pair σ (expandParentLocal env rec c p as ks) := by
  unfold expandParentLocal
  have hl : localAnalysis env' c p = localAnalysis env c p := by unfold localAnalysis; rw [ht]
  rw [hl]
  generalize localAnalysis env c p = r
  obtain ⟨c1, p1⟩ := r
  dsimp only
  split
  · have := dummyWalk_pair h hrec hq c1 (.mk (.sLocal p1) as ks)
    rw [fill_sLocal] at this
    exact this
  · match ks with
    | [] => simp [pair]
    | e :: els =>
      simp only [fillL_cons, expandBuild_pair h ht hrec hq]
      simp [pair]

include ht in
theorem fnAnalysis_cx (c : Cx) (ret : Option Ty) (b : Node) :
    fnAnalysis env' c ret (fill σ b) = fnAnalysis env c ret b := by
  unfold fnAnalysis
  cases ret with
  | none => rfl
  | some ty =>
    have hc : visitFn c (fill σ b) = visitFn c b := fnCount_fill h c false b
    have hm : retMode c ty (fill σ b) = retMode c ty b := by
      unfold retMode
      rw [hc]
    dsimp only
    rw [hm, ht]

include ht hrec hq in
theorem expandParentFn_pair (c : Cx) (name : String) (ret : Option Ty) (as asb : List Attr) (ss : List Node) :
    expandParentFn env' rec' c name ret as asb (fillL σ ss) =
      pair σ (expandParentFn env rec c name ret as asb ss) := by
  have hfn : ∀ ss, Node.mk (.iFn name ret) as [.mk .block asb (fillL σ ss)] =
      fill σ (.mk (.iFn name ret) as [.mk .block asb ss]) := by intro ss; simp
  have hb : Node.mk .block asb (fillL σ ss) = fill σ (.mk .block asb ss) := by simp
  unfold expandParentFn
  dsimp only
  rw [hb, fnAnalysis_cx h ht, ← hb]
  generalize fnAnalysis env c ret (.mk .block asb ss) = c
  split
  · rw [hfn]; exact dummyWalk_pair h hrec hq _ _
  · have h3 : (if (fillL σ ss).isEmpty = true then (c.error .emptyFn, fillL σ ss)
        else childLast c (fillL σ ss)) =
        pairL σ (if ss.isEmpty = true then (c.error .emptyFn, ss) else childLast c ss) := by
      rw [fillL_isEmpty, childLast_pair h]
      split <;> rfl
    rw [h3]
    generalize (if ss.isEmpty = true then (c.error .emptyFn, ss) else childLast c ss) = r
    obtain ⟨c1, ss1⟩ := r
    have hx : ∀ c : Cx, c.analysisExit env' = c.analysisExit env := by intro c; rw [Cx.analysisExit, Cx.analysisExit, ht]
    simp only [pairL, hx, hfn]
    split
    · exact dummyWalk_pair h hrec hq _ _
    · rw [walk_pair h (hrec .visitor {}) (hq .visitor {})]
      have hw : ∃ c2 x, walk (rec .visitor {}) c1 (.mk (.iFn name ret) as [.mk .block asb ss1]) =
          (c2, .mk (.iFn name ret) as [x]) := ⟨_, _, rfl⟩
      obtain ⟨c2, ⟨kb, asx, ssb⟩, hw⟩ := hw
      rw [hw]
      simp only [pair]
      have hi := fun c1 item => item_fill (σ := σ) (c := c2) (c1 := c1) (item := item)
      generalize c2.build = o at *
      obtain ⟨c3, o⟩ := o
      cases o with
      | none => rfl
      | some item =>
        have hi := hi c3 item rfl
        simp only [fill_iFn, fillL_cons, fillL_nil]
        rcases split_fill (σ := σ) kb ssb with ⟨t, rfl, rfl⟩ | hf
        · have hk := hole_kind h t
          have hp : ∀ k, plainKind k = true →
              (match ((c3, some item) : Cx × Option Node), Node.mk (.iFn name ret) as [.mk k asx (σ t).kids] with
                | (cx, some item), .mk k as [.mk .block asb ss] => (cx, Node.mk k as [.mk .block asb (item :: ss)])
                | (cx, _), n => (cx, n)) = (c3, .mk (.iFn name ret) as [.mk k asx (σ t).kids]) := by
            intro k hk
            cases k <;> first | rfl | cases hk
          rw [fill_hole]
          refine (hp _ hk).trans ?_
          simp [fill_hole]
        · rw [hf]
          cases kb <;> simp [hf, hi]

include ht hrec hq in
theorem expandParentStmt_pair (c : Cx) (n : Node) :
    expandParentStmt env' rec' c (fill σ n) = pair σ (expandParentStmt env rec c n) := by
  obtain ⟨k, as, ks⟩ := n
  rcases split_fill (σ := σ) k ks with ⟨t, rfl, rfl⟩ | hf
  · have hp : ∀ k, plainKind k = true →
        expandParentStmt env' rec' c (.mk k as (σ t).kids) = (c, .mk k as (σ t).kids) := by
      intro k hk
      cases k <;> first | rfl | cases hk
    rw [fill_hole, hp _ (hole_kind h t)]
    simp [expandParentStmt, pair, fill_hole]
  rw [hf]
  cases k <;> try (simp [expandParentStmt, pair, hf]; done)
  case sExpr semi =>
    match ks with
    | [] => simp [expandParentStmt, pair]
    | [e] =>
      simp only [fillL_cons, fillL_nil, expandParentStmt, expandParentExpr_pair h ht hrec hq]
      simp [pair]
    | _ :: _ :: _ => simp [expandParentStmt, pair]
  case sLocal p => exact expandParentLocal_pair h ht hrec hq c p as ks
  case iFn name ret =>
    match ks with
    | [] => simp [expandParentStmt, pair]
    | [.mk kb asb ss] =>
      rcases split_fill (σ := σ) kb ss with ⟨t, rfl, rfl⟩ | hf
      · have hp : ∀ k, plainKind k = true →
            expandParentStmt env' rec' c (.mk (.iFn name ret) as [.mk k asb (σ t).kids]) =
              (c, .mk (.iFn name ret) as [.mk k asb (σ t).kids]) := by
          intro k hk
          cases k <;> first | rfl | cases hk
        simp only [fillL_cons, fillL_nil, fill_hole, hp _ (hole_kind h t)]
        simp [expandParentStmt, pair, fill_hole]
      simp only [fillL_cons, fillL_nil, hf]
      cases kb <;> try (simp [expandParentStmt, pair, hf]; done)
      case block => exact expandParentFn_pair h ht hrec hq c name ret as asb ss
    | x :: y :: l =>
      have hp : ∀ n l (k : Kind) as, k = .iFn name ret → 2 ≤ l.length → expandParentStmt n rec' c (.mk k as l) = (c, .mk k as l) := by
        intro n l k as hk hl
        subst hk
        match l, hl with
        | .mk kb _ _ :: _ :: _, _ => cases kb <;> rfl
      have hp' : ∀ n l (k : Kind) as, k = .iFn name ret → 2 ≤ l.length → expandParentStmt n rec c (.mk k as l) = (c, .mk k as l) := by
        intro n l k as hk hl
        subst hk
        match l, hl with
        | .mk kb _ _ :: _ :: _, _ => cases kb <;> rfl
      rw [hp _ _ _ _ rfl (by simp), hp' _ _ _ _ rfl (by simp), pair, hf]

include ht hh hrec hq in
theorem vsVisitExpr_pair (vk : VK) (sc : Scope) (c : Cx) (n : Node) (semi : Bool) :
    vsVisitExpr env' rec' vk sc c (fill σ n) semi = pair σ (vsVisitExpr env rec vk sc c n semi) := by
  unfold vsVisitExpr
  rw [findRemoveAttr_fill h]
  cases n.findRemoveAttr NAME with
  | none => exact walk_pair h (hrec vk sc) (hq vk sc) c n
  | some r =>
    obtain ⟨a, n⟩ := r
    simp only [Option.map_some]
    cases a.form with
    | list toks =>
      simp only [hh n]
      generalize c.makeChild (env.hash n) toks = m
      obtain ⟨c1, e⟩ := m
      dsimp only
      rw [walk_pair h (hrec vk sc) (hq vk sc)]
      generalize walk (rec vk sc) c1 n = w
      obtain ⟨c2, n2⟩ := w
      cases e with
      | error e => rfl
      | ok child =>
        simp only [pair, expandParentExpr_pair h ht hrec hq]
    | _ =>
      simp only [walk_pair h (hrec vk sc) (hq vk sc)]
      rfl

theorem findRemoveAttrs_pair (sc : Scope) (c : Cx) (n : Node) :
    findRemoveAttrs sc c (fill σ n) = pair σ (findRemoveAttrs sc c n) := by
  unfold findRemoveAttrs
  split
  · rfl
  · dsimp only
    rw [findRemoveAttr_fill h]
    have h1 : ∀ (c : Cx) (n : Node), (match (fill σ n).findRemoveAttr "rec" with
        | some (_, n) => (c.error .recRemoved, n)
        | none => (c, fill σ n)) = pair σ (match n.findRemoveAttr "rec" with
        | some (_, n) => (c.error .recRemoved, n)
        | none => (c, n)) := by
      intro c n
      rw [findRemoveAttr_fill h]
      cases n.findRemoveAttr "rec" <;> rfl
    cases n.findRemoveAttr NEVER with
    | none => exact h1 c n
    | some r =>
      obtain ⟨a, n⟩ := r
      simp only [Option.map_some]
      cases a.form == .path
      · exact h1 (c.error .neverNotPath) n
      · exact h1 c n

theorem visitNested_pair (sc : Scope) (c : Cx) (n : Node) (a : Attr) :
    visitNested sc c (fill σ n) a = pair σ (visitNested sc c n a) := by
  unfold visitNested
  dsimp only
  split
  · exact childExpr_pair h _ n
  · rfl

include hrec hq in
theorem visitLocal_pair (vk : VK) (sc : Scope) (c : Cx) (n : Node) :
    visitLocal rec' vk sc c (fill σ n) = pair σ (visitLocal rec vk sc c n) := by
  unfold visitLocal
  cases vk with
  | dummy => exact walk_pair h (hrec .dummy sc) (hq .dummy sc) c n
  | visitor =>
    dsimp only
    split
    · rfl
    · have h2 : ∀ r : Cx × Node,
          (let w := walk (rec' .visitor sc) (pair σ r).1 (pair σ r).2; findRemoveAttrs sc w.1 w.2) =
          pair σ (let w := walk (rec .visitor sc) r.1 r.2; findRemoveAttrs sc w.1 w.2) := by
        intro r
        simp only [pair]
        rw [walk_pair h (hrec .visitor sc) (hq .visitor sc)]
        exact findRemoveAttrs_pair h sc _ _
      split
      · exact h2 (c, n)
      · rw [findRemoveAttr_fill h]
        cases n.findRemoveAttr NESTED with
        | none => exact h2 (c, n)
        | some r =>
          obtain ⟨a, k, as, ks⟩ := r
          simp only [Option.map_some]
          rcases split_fill (σ := σ) k ks with ⟨t, rfl, rfl⟩ | hf
          · have := h2 (c, .mk (.eLit t) as [])
            have hk := hole_kind h t
            simp only [pair, fill_hole] at this ⊢
            generalize (σ t).kind = k' at *
            cases k' <;> first | exact this | cases hk
          have h3 := h2 (c, .mk k as ks)
          simp only [pair, hf] at h3 ⊢
          cases k <;> try exact h3
          case sLocal p =>
            match ks with
            | [] => rw [fillL_nil] at h3 ⊢; exact h3
            | e :: els =>
              simp only [fillL_cons, visitNested_pair h]
              have := h2 ((visitNested sc c e a).1, .mk (.sLocal p) as ((visitNested sc c e a).2 :: els))
              simp only [pair, fill_sLocal, fillL_cons] at this
              exact this

include ht hh hrec hq in
theorem vsVisitStmt_pair (vk : VK) (sc : Scope) (c : Cx) (n : Node) :
    vsVisitStmt env' rec' vk sc c (fill σ n) = pair σ (vsVisitStmt env rec vk sc c n) := by
  have hA := findRemoveAttr_fill h n NAME
  have hV := visitLocal_pair h hrec hq vk sc c n
  obtain ⟨k, as, ks⟩ := n
  rcases split_fill (σ := σ) k ks with ⟨t, rfl, rfl⟩ | hf
  · have hp : ∀ k, plainKind k = true →
        vsVisitStmt env' rec' vk sc c (.mk k as (σ t).kids) = (c, .mk k as (σ t).kids) := by
      intro k hk
      cases k <;> first | rfl | cases hk
    rw [fill_hole, hp _ (hole_kind h t)]
    simp [vsVisitStmt, pair, fill_hole]
  rw [hf] at hA hV ⊢
  cases k <;> try (simp [vsVisitStmt, pair, hf]; done)
  case sExpr semi =>
    match ks with
    | [] => simp [vsVisitStmt, pair]
    | [e] =>
      simp only [fillL_cons, fillL_nil, vsVisitStmt, vsVisitExpr_pair h ht hh hrec hq]
      simp [pair]
    | _ :: _ :: _ => simp [vsVisitStmt, pair]
  case sLocal p =>
    unfold vsVisitStmt
    simp only at hA hV ⊢
    rw [hA, hV]
    cases (Node.mk (.sLocal p) as ks).findRemoveAttr NAME with
    | none => rfl
    | some r =>
      obtain ⟨a, n⟩ := r
      simp only [Option.map_some]
      have hS : ∀ toks,
          (let m := c.makeChild (env'.hash (fill σ n)) toks
            let w := visitLocal rec' vk sc m.1 (fill σ n)
            match m.2 with
            | .error e => (w.1.error e, w.2)
            | .ok child =>
              let r := expandParentStmt env' rec' child w.2
              (w.1.joinChild r.1, r.2)) =
          pair σ (let m := c.makeChild (env.hash n) toks
            let w := visitLocal rec vk sc m.1 n
            match m.2 with
            | .error e => (w.1.error e, w.2)
            | .ok child =>
              let r := expandParentStmt env rec child w.2
              (w.1.joinChild r.1, r.2)) := by
        intro toks
        simp only [hh n]
        generalize c.makeChild (env.hash n) toks = m
        obtain ⟨c1, e⟩ := m
        dsimp only
        rw [visitLocal_pair h hrec hq]
        generalize visitLocal rec vk sc c1 n = w
        obtain ⟨c2, n2⟩ := w
        cases e with
        | error e => rfl
        | ok child =>
          simp only [pair, expandParentStmt_pair h ht hrec hq]
      cases a.form with
      | path => exact hS []
      | list toks => exact hS toks
      | nameValue =>
        simp only [visitLocal_pair h hrec hq]
        rfl

theorem visitReturn_pair (sc : Scope) (c : Cx) (n : Node) :
    visitReturn sc c (fill σ n) = pair σ (visitReturn sc c n) := by
  unfold visitReturn
  rw [anyEmptyAttr_fill h]
  split
  · obtain ⟨k, as, ks⟩ := n
    rcases split_fill (σ := σ) k ks with ⟨t, rfl, rfl⟩ | hf
    · rw [fill_hole]
      have hk := hole_kind h t
      have hl : (c, Node.mk (σ t).kind as (σ t).kids) = pair σ (c, .mk (.eLit t) as []) := by simp [pair, fill_hole]
      generalize (σ t).kind = k' at *
      cases k' <;> first | exact hl | cases hk
    rw [hf]
    cases k <;> try (simp [pair, hf]; done)
    case eReturn =>
      simp only [replaceBoxed_pair h]
      simp [pair, pairL]
  · rfl

omit h in
theorem tryArms_fill (e : Node) : fillL σ (tryArms e) = tryArms (fill σ e) := by simp [tryArms]

theorem visitTry_pair (sc : Scope) (c : Cx) (n : Node) :
    visitTry sc c (fill σ n) = pair σ (visitTry sc c n) := by
  unfold visitTry
  rw [anyEmptyAttr_fill h]
  split
  · obtain ⟨k, as, ks⟩ := n
    rcases split_fill (σ := σ) k ks with ⟨t, rfl, rfl⟩ | hf
    · rw [fill_hole]
      have hk := hole_kind h t
      have hl : (c, Node.mk (σ t).kind as (σ t).kids) = pair σ (c, .mk (.eLit t) as []) := by simp [pair, fill_hole]
      generalize (σ t).kind = k' at *
      cases k' <;> first | exact hl | cases hk
    rw [hf]
    cases k <;> try (simp [pair, hf]; done)
    case eTry =>
      match ks with
      | [] => simp [pair]
      | [e] =>
        simp only [fillL_cons, fillL_nil, isMarkerExpr_fill h]
        split
        · simp [pair]
        · simp [pair, tryArms_fill, Cx.nextExpr, Cx.nextExprAttrs]
      | _ :: _ :: _ => simp [pair]
  · rfl

theorem visitMarker_pair (sc : Scope) (c : Cx) (n : Node) :
    visitMarker sc c (fill σ n) = pair σ (visitMarker sc c n) := by
  unfold visitMarker
  generalize c.assert (!sc.foreign || c.marker != DEFAULT_MARKER) .markerForeign = c
  obtain ⟨k, as, ks⟩ := n
  rcases split_fill (σ := σ) k ks with ⟨t, rfl, rfl⟩ | hf
  · rw [fill_hole]
    have hk := hole_kind h t
    have hl : (c, Node.mk (σ t).kind as (σ t).kids) = pair σ (c, .mk (.eLit t) as []) := by simp [pair, fill_hole]
    generalize (σ t).kind = k' at *
    cases k' <;> first | exact hl | cases hk
  rw [hf]
  cases k <;> try (simp [pair, hf]; done)
  case eMacro p t =>
    have h4 : fill σ failedMarker = failedMarker := by simp [failedMarker]
    dsimp only
    split
    · match ks with
      | [] => simp [pair, h4]
      | [e] =>
        simp only [fillL_cons, fillL_nil]
        split
        · rfl
        · exact nextExprAttrs_pair c as e
      | _ :: _ :: _ => simp [pair, h4]
    · simp [pair]

theorem visitMode_pair (sc : Scope) (c : Cx) (n : Node) :
    visitMode sc c (fill σ n) = pair σ (visitMode sc c n) := by
  unfold visitMode
  cases c.mode with
  | ret m => exact visitReturn_pair h sc c n
  | try_ => exact visitTry_pair h sc c n
  | default => rfl

theorem check_fill (n : Node) (sc : Scope) : sc.check (fill σ n).kind = sc.check n.kind := by
  obtain ⟨k, as, ks⟩ := n
  rcases split_fill (σ := σ) k ks with ⟨t, rfl, rfl⟩ | hf
  · rw [fill_hole]
    show sc.check (σ t).kind = sc
    have hk := hole_kind h t
    generalize (σ t).kind = k' at *
    cases k' <;> first | rfl | cases hk
  · rw [hf]; rfl

include ht hh hrec hq in
theorem visitExpr_pair (sc : Scope) (c : Cx) (n : Node) (semi : Bool) :
    visitExpr env' rec' sc c (fill σ n) semi = pair σ (visitExpr env rec sc c n semi) := by
  unfold visitExpr
  have h3 : ∀ sc : Scope, sc.check (fill σ n).kind = sc.check n.kind := check_fill h n
  simp only [anyAttr_fill h, h3]
  generalize (if n.anyAttr NAME = true then { c.assert (!c.hasError) .visitAfterError with hasChild := true }
    else c.assert (!c.hasError) .visitAfterError) = c
  generalize ((if n.anyAttr NAME = true then { sc with foreign := true } else sc).check n.kind) = sc
  rw [visitMode_pair h]
  generalize visitMode sc c n = r
  have hT : ∀ r : Cx × Node,
      (let r := vsVisitExpr env' rec' .visitor sc (pair σ r).1 (pair σ r).2 semi
        if !sc.foreign || r.1.marker != DEFAULT_MARKER then
          let r := visitMarker sc r.1 r.2
          findRemoveAttrs sc r.1 r.2
        else r) =
      pair σ (let r := vsVisitExpr env rec .visitor sc r.1 r.2 semi
        if !sc.foreign || r.1.marker != DEFAULT_MARKER then
          let r := visitMarker sc r.1 r.2
          findRemoveAttrs sc r.1 r.2
        else r) := by
    intro r
    simp only [pair, vsVisitExpr_pair h ht hh hrec hq]
    generalize vsVisitExpr env rec .visitor sc r.1 r.2 semi = r
    split
    · rw [visitMarker_pair h]
      exact findRemoveAttrs_pair h sc _ _
    · rfl
  by_cases hf : sc.foreign = true
  · simp only [hf, if_true] at hT ⊢
    exact hT r
  · simp only [hf, if_false, Bool.false_eq_true] at hT ⊢
    have hA := findRemoveAttr_fill h r.2 NESTED
    have hA' : (pair σ r).2.findRemoveAttr NESTED = _ := hA
    rw [hA']
    cases r.2.findRemoveAttr NESTED with
    | none => exact hT r
    | some x =>
      obtain ⟨a, n⟩ := x
      simp only [Option.map_some]
      have : visitNested sc (pair σ r).1 (fill σ n) a = pair σ (visitNested sc r.1 n a) :=
        visitNested_pair h sc r.1 n a
      rw [this]
      exact hT _

include hrec hq in
theorem visitArm_pair (sc : Scope) (c : Cx) (n : Node) :
    visitArm rec' sc c (fill σ n) = pair σ (visitArm rec sc c n) := by
  unfold visitArm
  split
  · rfl
  · have h2 : ∀ r : Cx × Node,
        (let w := walk (rec' .visitor sc) (pair σ r).1 (pair σ r).2; findRemoveAttrs sc w.1 w.2) =
        pair σ (let w := walk (rec .visitor sc) r.1 r.2; findRemoveAttrs sc w.1 w.2) := by
      intro r
      simp only [pair]
      rw [walk_pair h (hrec .visitor sc) (hq .visitor sc)]
      exact findRemoveAttrs_pair h sc _ _
    split
    · exact h2 (c, n)
    · rw [findRemoveAttr_fill h]
      cases n.findRemoveAttr NESTED with
      | none => exact h2 (c, n)
      | some r =>
        obtain ⟨a, k, as, ks⟩ := r
        simp only [Option.map_some]
        rcases split_fill (σ := σ) k ks with ⟨t, rfl, rfl⟩ | hf
        · have := h2 (c, .mk (.eLit t) as [])
          have hk := hole_kind h t
          simp only [pair, fill_hole] at this ⊢
          generalize (σ t).kind = k' at *
          cases k' <;> first | exact this | cases hk
        have h3 := h2 (c, .mk k as ks)
        simp only [pair, hf] at h3 ⊢
        cases k <;> try exact h3
        case arm p =>
          match ks with
          | [] => rw [fillL_nil] at h3 ⊢; exact h3
          | [b] =>
            simp only [fillL_cons, fillL_nil, visitNested_pair h]
            have := h2 ((visitNested sc c b a).1, .mk (.arm p) as [(visitNested sc c b a).2])
            simp only [pair, fill_arm, fillL_cons, fillL_nil] at this
            exact this
          | [g, b] =>
            simp only [fillL_cons, fillL_nil, visitNested_pair h]
            have := h2 ((visitNested sc c b a).1, .mk (.arm p) as [g, (visitNested sc c b a).2])
            simp only [pair, fill_arm, fillL_cons, fillL_nil] at this
            exact this
          | x :: y :: z :: l => simp only [fillL_cons] at h3 ⊢; exact h3

include ht hh hrec hq in
theorem visitStmt_pair (sc : Scope) (c : Cx) (n : Node) :
    visitStmt env' rec' sc c (fill σ n) = pair σ (visitStmt env rec sc c n) := by
  have hV : (let isName := (fill σ n).anyAttr NAME
      let sc := if isName then { sc with foreign := true } else sc
      let cx := if isName then { c with hasChild := true } else c
      vsVisitStmt env' rec' .visitor sc cx (fill σ n)) = pair σ (let isName := n.anyAttr NAME
      let sc := if isName then { sc with foreign := true } else sc
      let cx := if isName then { c with hasChild := true } else c
      vsVisitStmt env rec .visitor sc cx n) := by
    simp only [anyAttr_fill h]
    exact vsVisitStmt_pair h ht hh hrec hq .visitor _ _ n
  have h1 : c.hasError = c.hasError := rfl
  unfold visitStmt
  rw [h1]
  split
  · rfl
  · obtain ⟨k, as, ks⟩ := n
    rcases split_fill (σ := σ) k ks with ⟨t, rfl, rfl⟩ | hf
    · rw [fill_hole] at hV ⊢
      have hk := hole_kind h t
      generalize (σ t).kind = k' at *
      cases k' <;> first | exact hV | cases hk
    rw [hf] at hV ⊢
    cases k <;> try exact hV
    case sExpr semi =>
      match ks, hV with
      | [], hV => rw [fillL_nil] at hV ⊢; exact hV
      | [e], _ =>
        simp only [fillL_cons, fillL_nil, visitExpr_pair h ht hh hrec hq]
        simp [pair]
      | _ :: _ :: _, hV => simp only [fillL_cons] at hV ⊢; exact hV

include ht hh hrec hq in
theorem visitorStep_pair (sc : Scope) (c : Cx) (n : Node) :
    visitorStep env' rec' sc c (fill σ n) = pair σ (visitorStep env rec sc c n) := by
  unfold visitorStep
  rw [(kind_fill h n).1, (kind_fill h n).2.1]
  split
  · split
    · rfl
    · exact visitExpr_pair h ht hh hrec hq sc c n false
  · split
    · exact visitStmt_pair h ht hh hrec hq sc c n
    · have hw := walk_pair h (hrec .visitor sc) (hq .visitor sc) c n
      have ha := visitArm_pair h hrec hq sc c n
      obtain ⟨k, as, ks⟩ := n
      rcases split_fill (σ := σ) k ks with ⟨t, rfl, rfl⟩ | hf
      · rw [fill_hole] at hw ⊢
        have hk := hole_kind h t
        generalize (σ t).kind = k' at *
        cases k' <;> first | exact hw | cases hk
      rw [hf] at hw ha ⊢
      cases k <;> first | exact hw | exact ha

include ht hh hrec hq in
theorem dummyStep_pair (sc : Scope) (c : Cx) (n : Node) :
    dummyStep env' rec' sc c (fill σ n) = pair σ (dummyStep env rec sc c n) := by
  unfold dummyStep
  rw [(kind_fill h n).1, (kind_fill h n).2.1, anyAttr_fill h]
  split
  · split
    · rfl
    · exact vsVisitExpr_pair h ht hh hrec hq .dummy sc _ n false
  · split
    · split
      · rfl
      · exact vsVisitStmt_pair h ht hh hrec hq .dummy sc _ n
    · exact walk_pair h (hrec .dummy sc) (hq .dummy sc) c n


end

end

end Fill

end AutoEnums
