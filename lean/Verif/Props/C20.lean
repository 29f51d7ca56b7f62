import Verif.Lemmas.Regions
import Verif.Lemmas.Whole
import Verif.Lemmas.TidyRun
import Verif.Lemmas.Reach
import Verif.Examples

/-! # C20: regions of inner attributes -/

namespace AutoEnums

open Spec Judg

theorem Does.job {J : Job} {cx : Cx} (h : Does J cx) : jobIn .visitor cx = J.flow := by
  obtain ⟨h1, h2, _, _, h5, h6⟩ := h
  obtain ⟨en, m, b, r, t⟩ := J
  simp only [jobIn, Job.flow, Job.mk.injEq]
  simp only at h1 h2 h5 h6
  refine ⟨h1, h2, trivial, ?_, ?_⟩
  · cases hm : cx.mode <;> rw [hm] at h5 <;> cases r <;> simp at h5 <;> rfl
  · cases hm : cx.mode <;> rw [hm] at h6 <;> cases t <;> simp at h6 <;> rfl

theorem nodes_built (cx : Cx) {e x : Node} (h : x ∈ nodes e) : x ∈ nodes (built cx e) := by
  unfold built
  split
  · exact h
  · apply nodes_kids
    refine nodesL_mem (n := tailS e) ?_ (nodes_kids (nodesL_mem (n := e) ?_ h))
    · simp [buildExpr, exprBlock, Node.kids]
    · simp [tailS, Node.kids]

/-- What becomes of the regions under an attribute. -/
def RegionsDone (env : Env) (J : Job) (m : String) (rs : List Region) (ns : List Node) : Prop :=
  ∀ r ∈ rs, ∃ x ∈ ns, Owned (Expands env) (ExpandsApart env [m]) J [m] r x

/-- The part of the theorem about one of the kinds of input. -/
def Outcome20 (env : Env) (cx : Cx) (J : Job) (rs : List Region) (ns : List Node) : Prop :=
  RegionsDone env J.flow cx.marker rs ns ∨ cx.args = [] ∧ RegionsDone env (idleJob cx.ident) cx.marker rs ns

theorem root_exempts {cx : Cx} (h : cx.root = true) : cx.exempts = [cx.marker] := by
  unfold Cx.exempts; rw [h]; rfl

theorem regs_dummy {env : Env} {cx cx' : Cx} {n n' : Node} (hroot : cx.root = true) (hm : cx.markers = [cx.marker])
    (hb : elseBare n = true) (h : Run env (one .dummy {} cx n cx' n')) :
    RegionsDone env (idleJob cx.ident) cx.marker (regions {} false n) (nodes n') := by
  have := Run.regs h (by simp) hb {} (by simp [Placed])
  rw [hm, root_exempts hroot] at this
  exact this

theorem regs_closure {env : Env} {cx cx' : Cx} {i : String} {as : List Attr} {b n' : Node} (hroot : cx.root = true) (hm : cx.markers = [cx.marker])
    (hb : elseBare b = true) (hc : ∀ a ∈ as, named "auto_enum" a = false)
    (h : Run env (one .dummy {} cx (.mk (.eClosure i) as [b]) cx' n')) :
    RegionsDone env (idleJob cx.ident) cx.marker (regions {} false b) (nodes n') := by
  have hna : (Node.mk (.eClosure i) as [b]).anyAttr NAME = false := by
    simp only [Node.anyAttr, Node.attrs, Kind.hasAttrs, if_true, anyAttr, List.any_eq_false]
    intro a ha
    rw [← named_iff]
    simp only [show named NAME a = false from hc a ha, Bool.false_eq_true, not_false_eq_true]
  cases h with
  | oneExpr hk h1 =>
    cases h1 with
    | @plain _ _ _ _ cx2 ks _ _ _ hn hf hr _ _ =>
      have e1 : pre .dummy (enter .dummy {} (.mk (.eClosure i) as [b])) cx (.mk (.eClosure i) as [b]) =
          (cx, .mk (.eClosure i) as [b]) := by
        simp [pre, seen, hna]
      rw [e1] at hr
      have h2 := Run.regs hr (by simp) (by simpa [Node.sub, Kind.isOpaque, elseBareL] using hb) {} (by simp [Placed])
      rw [hm, root_exempts hroot] at h2
      intro r hr'
      obtain ⟨x, hx, o⟩ := h2 r (by simpa [Node.sub, Kind.isOpaque, regionsL] using hr')
      refine ⟨x, ?_, o⟩
      rw [e1]
      exact nodes_kids hx
    | child _ _ hn _ _ _ _ _ _ _ _ _ _ _ _ => rw [hna] at hn; cases hn
  | oneArm hk _ => cases hk
  | oneLocal hk _ _ => cases hk
  | oneLocalChild hk => cases hk
  | oneBlock hk => cases hk
  | oneInert hk => cases hk

theorem regs_target {env : Env} {cx cx' : Cx} {J : Job} {e e' : Node} (hd : Does J cx) (hm : cx.markers = [cx.marker])
    (hb : elseBare e = true) (h : Run env (target cx e cx' e')) :
    Outcome20 env cx J (regions {} false e) (nodes e') := by
  have ha := childExpr_analysed e cx hb
  have hs := childExpr_same e cx
  have hb' := elseBare_analysed _ _ ha hb
  cases h with
  | target hx _ hr =>
    left
    have h2 := Run.regs hr (by simp) hb' {} (by simp [Placed])
    rw [jobIn_same hs, hs.markers, hs.exempts, hm, root_exempts hd.root, hd.job] at h2
    refine Owned.covered ?_ h2
    have := regions_analysed _ _ ha {} false
    rwa [hd.ident] at this
  | targetExit hx _ hr =>
    right
    refine ⟨hs.args ▸ analysisExit_args hx, ?_⟩
    have h2 := Run.regs hr (by simp) hb' {} (by simp [Placed])
    rw [jobIn_same hs, hs.markers, hs.exempts, hm, root_exempts hd.root] at h2
    exact Owned.covered (regions_analysed _ _ ha {} false) h2

theorem Outcome20.mono {env : Env} {cx : Cx} {J : Job} {rs : List Region} {ns ns' : List Node}
    (h : Outcome20 env cx J rs ns) (hs : ∀ x ∈ ns, x ∈ ns') : Outcome20 env cx J rs ns' := by
  have : ∀ J, RegionsDone env J cx.marker rs ns → RegionsDone env J cx.marker rs ns' := by
    intro J h r hr
    obtain ⟨x, hx, o⟩ := h r hr
    exact ⟨x, hs x hx, o⟩
  exact h.imp (this _) (fun h => ⟨h.1, this _ h.2⟩)

/-- The job of an attributed expression, with or without a semicolon. -/
def jobSemi (en : Ident) (m : String) : Bool → Node → Job
  | false, e => jobOfExpr en m e
  | true, _ => exprJob en m true

theorem regionsOf_other {semi : Bool} {e : Node} (h : semi = false → ∀ i as b, e ≠ .mk (.eClosure i) as [b]) :
    regionsOf semi e = regions {} false e := by
  unfold regionsOf
  split
  · exact absurd rfl (h rfl _ _ _)
  · rfl

theorem regs_build {env : Env} {cx cx' : Cx} {semi : Bool} {e e' : Node} (hroot : cx.root = true)
    (hmode : cx.mode = .default) (hlast : (cx.lastMode == .never) = semi)
    (hm : cx.markers = [cx.marker]) (hb : elseBare e = true) (hs : shaped e = true)
    (h : Run env (build cx e cx' e')) :
    Outcome20 env cx (jobSemi cx.ident cx.marker semi e) (regionsOf semi e) (nodes e') := by
  have hv : cx.visitLast = !semi := by
    rw [← hlast]
    cases h : cx.lastMode <;> simp [Cx.visitLast, hmode, h] <;> rfl
  cases h with
  | buildExpr hne ht _ =>
    have hd := expr_does hroot hmode
    rw [hlast] at hd
    have hne' : semi = false → ∀ i as b, e ≠ .mk (.eClosure i) as [b] := by
      rintro rfl
      exact hne (by rw [hv]; rfl)
    rw [regionsOf_other hne']
    have hj : jobSemi cx.ident cx.marker semi e = exprJob cx.ident cx.marker semi := by
      cases semi with
      | true => rfl
      | false =>
        unfold jobSemi jobOfExpr
        dsimp only
        split
        · exact absurd rfl (hne' rfl _ _ _)
        · rfl
    rw [hj]
    exact (regs_target hd hm hb ht).mono fun x hx => nodes_built _ hx
  | @buildClosure _ b _ b' i as hvl ht _ =>
    rw [hv] at hvl
    simp only [Bool.not_eq_true'] at hvl
    subst hvl
    have hsb : shaped b = true := by
      rw [shaped.eq_def] at hs
      simpa [shapedL] using hs
    have hbb : elseBare b = true := by
      rw [elseBare_mk (by intro h; cases h)] at hb
      simpa [elseBareL] using hb
    have hd := closure_does hroot (by rw [hv]; rfl) hsb
    have := regs_target hd hm hbb ht
    refine Outcome20.mono (cx := cx) this fun x hx => nodes_built _ (nodes_kids ?_)
    exact nodesL_mem (List.mem_singleton.2 rfl) hx

/-- The hypothesis about attributed closures. -/
def BareClosure (e : Node) : Prop :=
  ∀ i as b, e = .mk (.eClosure i) as [b] → ∀ a ∈ as, named "auto_enum" a = false

theorem regs_dummyOf {env : Env} {cx cx' : Cx} {semi : Bool} {e e' : Node} (hroot : cx.root = true)
    (hm : cx.markers = [cx.marker]) (hb : elseBare e = true) (hc : BareClosure e)
    (h : Run env (one .dummy {} cx e cx' e')) :
    RegionsDone env (idleJob cx.ident) cx.marker (regionsOf semi e) (nodes e') := by
  unfold regionsOf
  split
  · rename_i i as b
    refine regs_closure hroot hm ?_ (hc _ _ _ rfl) h
    rw [elseBare_mk (by intro h; cases h)] at hb
    simpa [elseBareL] using hb
  · exact regs_dummy hroot hm hb h

theorem regs_onExpr {env : Env} {cx cx' : Cx} {semi : Bool} {e e' : Node} (hroot : cx.root = true) (hf : Fresh cx)
    (hm : cx.markers = [cx.marker]) (hb : elseBare e = true) (hs : shaped e = true)
    (hc : BareClosure e) (h : Run env (onExpr semi cx e cx' e')) :
    Outcome20 env cx (jobSemi cx.ident cx.marker semi e) (regionsOf semi e) (nodes e') := by
  have hcx : ∀ semi : Bool, ∃ c : Cx, c = (if semi then { cx with lastMode := .never } else cx) ∧ c.root = true ∧
      c.mode = .default ∧ (c.lastMode == .never) = semi ∧ c.markers = [c.marker] ∧ c.marker = cx.marker ∧
      c.ident = cx.ident ∧ c.args = cx.args := by
    intro semi
    refine ⟨_, rfl, ?_⟩
    cases semi with
    | true => exact ⟨hroot, hf.mode, rfl, hm, rfl, rfl, rfl⟩
    | false => exact ⟨hroot, hf.mode, by simp only [Bool.false_eq_true, if_false, hf.lastMode]; rfl, hm, rfl, rfl, rfl⟩
  obtain ⟨c, e0, c1, c2, c3, c4, c5, c6, c7⟩ := hcx semi
  cases h with
  | exprDummy hd h =>
    rw [← e0] at hd h
    have := regs_dummyOf (semi := semi) c1 c4 hb hc h
    rw [c5, c6] at this
    exact .inr ⟨c7 ▸ isDummy_args hd, this⟩
  | exprBuild hd h =>
    rw [← e0] at h
    have := regs_build c1 c2 c3 c4 hb hs h
    unfold Outcome20 at this ⊢
    rw [c5, c6, c7] at this
    exact this

theorem regs_body {env : Env} {vk : VK} {cx cx' : Cx} {asb : List Attr} {ss : List Node} {b' : Node}
    (hb : elseBareL ss = true) (h : Run env (many vk {} cx [.mk .block asb ss] cx' [b'])) :
    ∃ ss', b' = .mk .block asb ss' ∧ ∀ r ∈ regionsL {} false ss, ∃ x ∈ nodesL ss',
        Owned (Expands env) (ExpandsApart env cx.markers) (jobIn vk cx) cx.exempts r x := by
  cases h with
  | cons h1 h2 =>
    cases h2
    cases h1 with
    | oneExpr hk => cases hk
    | oneArm hk _ => cases hk
    | oneLocal hk _ _ => cases hk
    | oneLocalChild hk => cases hk
    | @oneBlock _ _ _ _ ks _ _ _ _ hr =>
      refine ⟨ks, rfl, ?_⟩
      exact Run.regs hr (by simp) hb {} (by simp [Placed])
    | oneInert hk => cases hk

theorem regs_onStmt {env : Env} {cx cx' : Cx} {n n' : Node} (hroot : cx.root = true) (hf : Fresh cx)
    (hm : cx.markers = [cx.marker]) (hn : isTarget n = true) (he : isExprNode n = false)
    (hb : elseBare (targetOf n) = true) (hs : shaped (targetOf n) = true)
    (hc : BareClosure (targetOf n)) (h : Run env (onStmt cx n cx' n')) :
    Outcome20 env cx (jobOf cx.ident cx.marker n) (regionsIn n) (nodes n') := by
  cases h with
  | @stmtExpr semi _ e _ e' as h =>
    have := regs_onExpr hroot hf hm hb hs hc h
    have hj : jobSemi cx.ident cx.marker semi e = jobOf cx.ident cx.marker (.mk (.sExpr semi) as [e]) := by
      cases semi <;> rfl
    have hr : regionsOf semi e = regionsIn (.mk (.sExpr semi) as [e]) := by cases semi <;> rfl
    rw [← hj, ← hr]
    exact this.mono fun x hx => nodes_kids (nodesL_mem (List.mem_singleton.2 rfl) hx)
  | @stmtLocalDummy _ p cx1 p1 ks _ ks' as hl hd h =>
    have hk := localAnalysis_kept hl
    cases ks with
    | nil => cases hn
    | cons e els =>
      cases h with
      | @cons _ _ _ _ _ e' _ _ els' h1 h2 =>
        have := regs_dummyOf (semi := false) (hk.root.trans hroot) (by rw [hk.markers, hk.marker, hm]) hb hc h1
        rw [hk.ident, hk.marker] at this
        refine Outcome20.mono (.inr ⟨by rw [← hk.args]; exact isDummy_args hd, this⟩) ?_
        exact fun x hx => nodes_kids (nodesL_mem List.mem_cons_self hx)
  | @stmtLocal _ p cx1 p1 e _ e' as els hl hd h =>
    have hk := localAnalysis_kept hl
    obtain ⟨l1, l2, _⟩ := localAnalysis_modes hl
    have := regs_build (semi := false) (hk.root.trans hroot) (l2.trans hf.mode) (by rw [l1, hf.lastMode]; rfl)
      (by rw [hk.markers, hk.marker, hm]) hb hs h
    unfold Outcome20 at this
    rw [hk.ident, hk.marker, hk.args] at this
    refine Outcome20.mono this ?_
    exact fun x hx => nodes_kids (nodesL_mem List.mem_cons_self hx)
  | @stmtFnDummy _ ret asb ss cx1 _ b' name as ha hd h =>
    have hk := fnAnalysis_kept ha
    have hb' : elseBareL ss = true := by
      have h1 : elseBare (.mk (.eBlock none) [] ss) = true := hb
      rwa [elseBare_mk (by intro h; cases h)] at h1
    obtain ⟨ss', rfl, h2⟩ := regs_body hb' h
    rw [hk.markers, hm, (root_exempts (hk.root.trans hroot)), hk.marker] at h2
    have h3 : idleJob cx.ident = jobIn .dummy cx1 := by rw [← hk.ident]; rfl
    have h4 : regionsIn (.mk (.iFn name ret) as [.mk .block asb ss]) = regionsL {} false ss := by
      show regions {} false (.mk (.eBlock none) [] ss) = _
      rw [regions_simple _ _ _ rfl rfl rfl rfl]
    rw [h4]
    refine Outcome20.mono (.inr ⟨by rw [← hk.args]; exact isDummy_args hd, ?_⟩)
      (fun x hx => nodes_kids (nodesL_mem (List.mem_singleton.2 rfl) (nodes_kids hx)))
    rw [h3]
    exact h2
  | @stmtFnExit _ ret asb ss cx1 _ b' name as ha hd _ hx _ h =>
    have hk := fnAnalysis_kept ha
    have hb' : elseBareL ss = true := by
      have h1 : elseBare (.mk (.eBlock none) [] ss) = true := hb
      rwa [elseBare_mk (by intro h; cases h)] at h1
    have hb1 : elseBare (.mk (.eBlock none) [] ss) = true := hb
    have han := childLast_analysed ss cx1 hb'
    have hcs := childLast_same ss cx1
    have han' : Analysed cx1.ident (.mk (.eBlock none) [] ss) (.mk (.eBlock none) [] (childLast cx1 ss).2) :=
      Analysed_mk.2 ⟨(fun h => by rw [innerAttr_bare] at h; cases h), _, variantIdent 0, han, variant_is 0, .inl rfl⟩
    have hb2 := elseBare_analysed _ _ han' hb1
    rw [elseBare_mk (by intro h; cases h)] at hb2
    obtain ⟨ss', rfl, h2⟩ := regs_body hb2 h
    rw [jobIn_same hcs, hcs.markers, hcs.exempts, hk.markers, hm, (root_exempts (hk.root.trans hroot)), hk.marker] at h2
    have h3 : idleJob cx.ident = jobIn .dummy cx1 := by rw [← hk.ident]; rfl
    have hcov := regions_analysed _ _ han' {} false
    rw [regions_simple _ _ (childLast cx1 ss).2 rfl rfl rfl rfl] at hcov
    refine Outcome20.mono (.inr ⟨by rw [← hk.args, ← hcs.args]; exact analysisExit_args hx, ?_⟩)
      (fun x hx => nodes_kids (nodesL_mem (List.mem_singleton.2 rfl) (nodes_kids hx)))
    rw [h3]
    exact Owned.covered hcov h2
  | @stmtFn _ ret asb ss cx1 _ b' name as ha hd _ hx _ h hbu =>
    have hk := fnAnalysis_kept ha
    have hb' : elseBareL ss = true := by
      have h1 : elseBare (.mk (.eBlock none) [] ss) = true := hb
      rwa [elseBare_mk (by intro h; cases h)] at h1
    have hb1 : elseBare (.mk (.eBlock none) [] ss) = true := hb
    have han := childLast_analysed ss cx1 hb'
    have hcs := childLast_same ss cx1
    have han' : Analysed cx1.ident (.mk (.eBlock none) [] ss) (.mk (.eBlock none) [] (childLast cx1 ss).2) :=
      Analysed_mk.2 ⟨(fun h => by rw [innerAttr_bare] at h; cases h), _, variantIdent 0, han, variant_is 0, .inl rfl⟩
    have hb2 := elseBare_analysed _ _ han' hb1
    rw [elseBare_mk (by intro h; cases h)] at hb2
    obtain ⟨ss', rfl, h2⟩ := regs_body hb2 h
    have hs' : shaped (.mk .block asb ss) = true := by
      have h1 : shaped (.mk (.eBlock none) [] ss) = true := hs
      rw [shaped.eq_def] at h1 ⊢
      exact h1
    have hd := fnAnalysis_does (env := env) (ret := ret) hroot hf hs'
    rw [ha] at hd
    rw [jobIn_same hcs, hcs.markers, hcs.exempts, hk.markers, hm, (root_exempts (hk.root.trans hroot)), hk.marker,
      hd.job] at h2
    have hcov := regions_analysed _ _ han' {} false
    rw [regions_simple _ _ (childLast cx1 ss).2 rfl rfl rfl rfl, hk.ident] at hcov
    have hen : (jobOf cx.ident cx.marker (.mk (.iFn name ret) as [.mk .block asb ss])).flow.en = cx.ident := by
      exact hd.ident.symm.trans hk.ident
    have hd1 : RegionsDone env (jobOf cx.ident cx.marker (.mk (.iFn name ret) as [.mk .block asb ss])).flow cx.marker
        (regionsIn (.mk (.iFn name ret) as [.mk .block asb ss])) (nodesL ss') :=
      Owned.covered (by rw [hen]; exact hcov) h2
    refine Outcome20.mono (.inl hd1) (fun x hx => ?_)
    unfold builtFn
    split
    · exact nodes_kids (nodesL_mem (List.mem_singleton.2 rfl) (nodes_kids hx))
    · refine nodes_kids (nodesL_mem (List.mem_singleton.2 rfl) (nodes_kids ?_))
      simp only [Node.kids, nodesL, List.mem_append]
      exact .inr hx
  | stmtInert h1 h2 h3 h4 =>
    exfalso
    unfold isTarget at hn
    split at hn
    · exact h3 _ _ _ rfl
    · exact h2 _ rfl
    · exact h4 _ _ _ _ _ rfl
    · rw [hn] at he; cases he

/-- C20: the region of an inner attribute is given to that inner attribute.

Every region in the input that is not inside another one corresponds to a node of the output: that node is
what the macro itself makes, with the arguments of the inner attribute and with nothing around it
(`ExpandsApart`), of the region as it is after the enclosing attribute has done its part.  That part consists
only of wrapping values of `break`s (C07 tells which), of wrapping `return`s and desugaring `?`s that leave the function of the enclosing attribute
(`viaFlow`; C09 and C12 tell which), of replacing calls of its custom marker (`viaMarker`), and of expanding the attributes
inside of the region, again as if each stood alone (`Expands`).  No branch of the region is wrapped for the
enclosing attribute (`Job.flow`), and no annotation in it is consumed.

For the outermost regions the inner attribute's own expansion is like that of the macro on its own, if no
enclosing marker is called in what the region has become, and none is declared there. -/
theorem C20 (env : Env) (fuel h : Nat) (toks : List Tok) (traits : List Path) (mk : Option Ident)
    (n : Node) (hargs : IsArgs toks traits mk) (hn : isTarget n = true) (hb : elseBare (targetOf n) = true)
    (hs : shaped (targetOf n) = true)
    (hc : ∀ i as b, targetOf n = .mk (.eClosure i) as [b] → ∀ a ∈ as, named "auto_enum" a = false)
    (input : Input) (hi : input = .expr n ∧ isExprNode n = true ∨ input = .stmt n ∧ isExprNode n = false)
    (out : Node) (hrun : autoEnum env fuel h toks input = .code out) :
    ∃ J : Job, (J = (jobOf ("__Enum" ++ toString h) (mk.getD "marker") n).flow ∨
        traits = [] ∧ J = idleJob ("__Enum" ++ toString h)) ∧
      ∀ r ∈ regionsIn n, ∃ x ∈ nodes out,
        Owned (Expands env) (ExpandsApart env [mk.getD "marker"]) J [mk.getD "marker"] r x := by
  obtain ⟨cx, cx', hnew, _, _, h1⟩ := code_run hrun
  have hf := new_fresh hnew
  obtain ⟨m, p1, p2, p3, p4, p5, _⟩ := new_args hnew
  rw [(parseArgs_iff _ _ _).mpr hargs] at p1
  cases p1
  have hm : cx.markers = [cx.marker] := p4
  have p3' : cx.marker = mk.getD "marker" := p3
  have p2' : cx.ident = "__Enum" ++ toString h := p2
  have key : Outcome20 env cx (jobOf cx.ident cx.marker n) (regionsIn n) (nodes out) := by
    rcases hi with ⟨rfl, he⟩ | ⟨rfl, he⟩
    · rcases h1 with ⟨n', h, _⟩ | ⟨n', h, hr⟩
      · cases h
      · cases h
        have ht : targetOf n = n ∧ jobOf cx.ident cx.marker n = jobSemi cx.ident cx.marker false n ∧
            regionsIn n = regionsOf false n := by
          obtain ⟨k, as, ks⟩ := n
          cases k <;> first | exact ⟨rfl, rfl, rfl⟩ | (simp [isExprNode, Node.kind] at he; done)
        rw [ht.1] at hb hs hc
        rw [ht.2.1, ht.2.2]
        exact regs_onExpr p5 hf hm hb hs hc hr
    · rcases h1 with ⟨n', h, hr⟩ | ⟨n', h, _⟩
      · cases h
        exact regs_onStmt p5 hf hm hn he hb hs hc hr
      · cases h
  unfold Outcome20 RegionsDone at key
  rw [p2', p3'] at key
  rcases key with key | ⟨ha, key⟩
  · exact ⟨_, .inl rfl, key⟩
  · exact ⟨_, .inr ⟨ha, rfl⟩, key⟩

/-! ## Attributes that only wrap branches -/

theorem BreaksIn_breakless {en : Ident} : ∀ (n n' : Node), BreaksIn en n n' → breakless n = true → n' = n := by
  intro n
  induction n using Node.ind with
  | h k as ks ih =>
    intro n' h hb
    obtain ⟨ks', h1, h2⟩ := BreaksIn_mk.1 h
    rw [breakless, Bool.and_eq_true] at hb
    have : ks' = ks := by
      replace hb := hb.2
      clear h h2
      induction ks generalizing ks' with
      | nil => rw [BreaksInL] at h1; exact h1
      | cons c cs ihs =>
        rw [BreaksInL] at h1
        obtain ⟨m, ms, rfl, g1, g2⟩ := h1
        rw [breaklessL, Bool.and_eq_true] at hb
        rw [ih c (by simp) m g1 hb.1, ihs (fun d hd => ih d (by simp [hd])) _ g2 hb.2]
    subst this
    rcases h2 with rfl | ⟨l, vn, rfl, _⟩
    · rfl
    · simp [isBreak] at hb

theorem BreaksMany_breakless {en : Ident} {n n' : Node} (h : BreaksMany en n n') (hb : breakless n = true) : n' = n := by
  induction h with
  | refl => rfl
  | step _ h2 ih =>
    rw [ih] at h2
    exact BreaksIn_breakless _ _ h2 hb

theorem viaMarker_default {J : Job} (h : J.branchesOnly) (vn : Ident) (n : Node) : viaMarker J vn n = n := by
  unfold viaMarker
  split
  · rw [if_neg]
    rintro ⟨h1, _⟩
    exact h1 h.2.2
  · rfl

theorem viaFlow_none {J : Job} (h : J.branchesOnly) (ms : List String) (w : Where) (vn : Ident) (k : Kind)
    (as : List Attr) (ks ks' : List Node) : viaFlow J ms w vn k as ks ks' = .mk k as ks' := by
  unfold viaFlow
  rw [h.1, h.2.1]
  split
  · rfl
  · split <;> rfl
  · rfl

theorem Outside_none {X : Expansion} {J : Job} (hJ : J.branchesOnly) : ∀ (n : Node) (w : Where) (semi : Bool) (n' : Node),
    grammatical n = true → hasAttr "auto_enum" n = false → Outside X J w semi n n' → n' = n := by
  intro n
  induction n using Node.ind with
  | h k as ks ih =>
    intro w semi n' hg ha h
    rw [hasAttr_mk, Bool.or_eq_false_iff] at ha
    have hi : innerAttr k as = none := by
      unfold innerAttr
      split
      · rw [List.find?_eq_none]
        intro a hm
        rw [named_iff]
        exact List.any_eq_false.1 ha.1 a hm
      · rfl
    have ho : oddStatement k ks = false := by
      unfold oddStatement
      split
      · have := (grammatical_mk hg rfl).1
        match ks, this with
        | [e], this => simpa [kidsOk] using this
      · rfl
    rcases Outside_mk.1 h with h | ⟨ks', vn, vn', h1, _, _, h2⟩
    · rw [ho] at h; cases h
    · rw [Via, hi] at h2
      simp only [viaFlow_none hJ, viaMarker_default hJ] at h2
      subst h2
      congr 1
      split at h1
      · exact h1
      · rename_i hk
        have hk' : hidesCode k = false := by simpa using hk
        have hgk := (grammatical_mk hg hk').2
        rw [hidesCode_eq] at hk'
        have hak : hasAttrL "auto_enum" ks = false := by simpa [hk'] using ha.2
        clear h ho hg ha hi
        revert h1
        generalize w.enter k = w1
        generalize endsIn k = s1
        intro h1
        induction ks generalizing ks' with
        | nil => exact OutsideL_nil.1 h1
        | cons c cs ihs =>
          obtain ⟨m, ms, rfl, g1, g2⟩ := OutsideL_cons.1 h1
          rw [grammaticalL, Bool.and_eq_true] at hgk
          rw [hasAttrL_cons, Bool.or_eq_false_iff] at hak
          rw [ih c (by simp) _ _ m hgk.1 hak.1 g1, ihs (fun d hd => ih d (by simp [hd])) _ hgk.2 hak.2 g2]

theorem OutsideL_none {X : Expansion} {J : Job} (hJ : J.branchesOnly) : ∀ (ns : List Node) (w : Where) (semi : Bool)
    (ns' : List Node), grammaticalL ns = true → hasAttrL "auto_enum" ns = false → OutsideL X J w semi ns ns' → ns' = ns
  | [], w, semi, ns', hs, ha, h => OutsideL_nil.1 h
  | n :: ns, w, semi, ns', hs, ha, h => by
    obtain ⟨m, ms, rfl, h1, h2⟩ := OutsideL_cons.1 h
    rw [grammaticalL, Bool.and_eq_true] at hs
    rw [hasAttrL_cons, Bool.or_eq_false_iff] at ha
    rw [Outside_none hJ _ _ _ _ hs.1 ha.1 h1, OutsideL_none hJ _ _ _ _ hs.2 ha.2 h2]

/-- The expansion of a region that is left alone by the enclosing attribute. -/
def Spec.ExpandsAlone (env : Env) (ms : List String) (r : Region) (x : Node) : Prop :=
  ∃ a toks, innerAttr r.node.kind r.node.rawAttrs = some a ∧ letArgs a.form = some toks ∧
    ExpandsApart env ms toks r.semi (without r.node) x

/-- C20: in particular, an attribute that only wraps branches (that is, one on an expression, a `let` or an
ordinary function, and without a custom marker) leaves the region of an inner attribute alone, if there is
no `break` and no further attribute in it: what is found in the output is exactly what the macro makes of
the region on its own, with the arguments of the inner attribute. -/
theorem C20_alone (env : Env) (fuel h : Nat) (toks : List Tok) (traits : List Path)
    (n : Node) (hargs : IsArgs toks traits none) (hn : isTarget n = true) (hb : elseBare (targetOf n) = true)
    (hs : shaped (targetOf n) = true)
    (hc : ∀ i as b, targetOf n = .mk (.eClosure i) as [b] → ∀ a ∈ as, named "auto_enum" a = false)
    (hJ : (jobOf ("__Enum" ++ toString h) "marker" n).branchesOnly)
    (input : Input) (hi : input = .expr n ∧ isExprNode n = true ∨ input = .stmt n ∧ isExprNode n = false)
    (out : Node) (hrun : autoEnum env fuel h toks input = .code out)
    (r : Region) (hr : r ∈ regionsIn n) (hrb : breakless r.node = true) (hrg : grammaticalL r.node.kids = true)
    (hra : hasAttrL "auto_enum" r.node.kids = false) :
    ∃ x ∈ nodes out, ExpandsAlone env ["marker"] r x := by
  obtain ⟨J, hj, h1⟩ := C20 env fuel h toks traits none n hargs hn hb hs hc input hi out hrun
  have hJ' : J.branchesOnly := by
    rcases hj with rfl | ⟨_, rfl⟩
    · exact hJ
    · exact ⟨rfl, rfl, rfl⟩
  obtain ⟨x, hx, r', b, ks', vn, vn', k1, _, _, k2, k3⟩ := h1 r hr
  have := BreaksMany_breakless b hrb
  subst this
  refine ⟨x, hx, ?_⟩
  have hk : ks' = r.node.kids := by
    split at k1
    · exact k1
    · exact OutsideL_none hJ' _ _ _ _ hrg hra k1
  subst hk
  obtain ⟨a, ha⟩ := Option.isSome_iff_exists.1 k2
  rw [Via, ha] at k3
  simp only [viaFlow_none hJ', viaMarker_default hJ'] at k3
  obtain ⟨toks', out', g1, g2, rfl⟩ := k3
  exact ⟨a, toks', ha, g1, g2⟩

/-! ## Any context -/

/-- C20 for a visitor in any context, in particular one of an attribute that is itself an inner attribute
(`cx.root = false`): then calls of all enclosing markers count as calls of a marker. -/
theorem C20_visit (env : Env) (f : Nat) (vk : VK) (sc : Scope) (cx : Cx) (n : Node) (w : Where)
    (hw : vk = .visitor → sc = ⟨w.closure, w.tryBlock, false⟩) (hb : elseBare n = true)
    (he : (visit env f vk sc cx n).1.errs = []) (hp : (visit env f vk sc cx n).1.panics = []) :
    ∀ r ∈ regions w false n, ∃ x ∈ nodes (visit env f vk sc cx n).2,
      Owned (Expands env) (ExpandsApart env cx.markers)
        (match vk with
          | .visitor => ⟨cx.ident, cx.marker, false, decide (cx.mode ≠ .default ∧ cx.mode ≠ .try_), decide (cx.mode = .try_)⟩
          | .dummy => idleJob cx.ident)
        (cx.marker :: if cx.root then [] else cx.markers) r x := by
  obtain ⟨_, hr⟩ := (visit_run env f).run vk sc cx n ⟨he, hp⟩
  have h1 := Run.regs hr (fun h => by rw [hw h]) hb w (fun h => by rw [hw h]; exact ⟨rfl, rfl⟩)
  cases vk with
  | dummy => exact h1
  | visitor =>
    have e : jobIn .visitor cx = ⟨cx.ident, cx.marker, false, decide (cx.mode ≠ .default ∧ cx.mode ≠ .try_), decide (cx.mode = .try_)⟩ := by
      unfold jobIn
      cases cx.mode <;> rfl
    dsimp only
    rw [← e]
    exact h1

/-! ## Cases that meet the hypotheses -/

/-- `match x { 0 => 1, 1 => 2, _ => #[auto_enum(Iterator, marker = b)] match x { 0 => 1, 1 => 2, _ => 3 } }` -/
def Ex.twoDeep : Node :=
  .mk .eMatch [] [Ex.var "x", Ex.arm "0" (Ex.lit "1"), Ex.arm "1" (Ex.lit "2"), Ex.arm "_"
    (.mk .eMatch [⟨.ofIdents ["auto_enum"], .list [.ident "Iterator", .comma, .ident "marker", .eq, .ident "b"]⟩]
      [Ex.var "x", Ex.arm "0" (Ex.lit "1"), Ex.arm "1" (Ex.lit "2"), Ex.arm "_" (Ex.lit "3")])]

/-- The inner `match` is expanded by the inner attribute alone. -/
example : ∃ r ∈ regionsIn Ex.twoDeep, r.node.kind = .eMatch ∧ ∃ out, autoEnum Ex.env 20 5 Ex.iterator
    (.expr Ex.twoDeep) = .code out ∧ ∃ x ∈ nodes out, ExpandsAlone Ex.env ["marker"] r x := by
  obtain ⟨out, ho, _⟩ := Ex.of_check (o := autoEnum Ex.env 20 5 Ex.iterator (.expr Ex.twoDeep))
    (p := fun _ => true) (by decide +kernel)
  exact ⟨_, .head _, rfl, out, ho, C20_alone Ex.env 20 5 _ [.ofIdents ["Iterator"]] _
    (parseArgs_iff _ _ _ |>.mp rfl) rfl (by decide +kernel) (by decide +kernel) (fun i as b h => by cases h)
    ⟨rfl, rfl, rfl⟩ _ (.inl ⟨rfl, rfl⟩) out ho _ (.head _) (by decide +kernel) (by decide +kernel) (by decide +kernel)⟩

/-- ```
fn f() -> impl Iterator {
    if a { return 1; }
    let y = #[auto_enum(Iterator)] match b { 0 => { return 2; 3 }, 1 => 3, _ => 4 };
    y
}
``` -/
def Ex.flowDeep : Node :=
  .mk (.iFn "f" (some Ex.implIter)) [] [.mk .block []
    [semiS (.mk .eIf [] [Ex.var "a", .mk .block [] [semiS (.mk .eReturn [] [Ex.lit "1"])]]),
     .mk (.sLocal (.plain "y")) [] [.mk .eMatch [⟨.ofIdents ["auto_enum"], .list Ex.iterator⟩] [Ex.var "b",
       Ex.arm "0" (exprBlock [semiS (.mk .eReturn [] [Ex.lit "2"]), tailS (Ex.lit "3")]),
       Ex.arm "1" (Ex.lit "3"), Ex.arm "_" (Ex.lit "4")]],
     tailS (Ex.var "y")]]

/-- The region of the `match` belongs to the inner attribute; the `return` in it is wrapped before. -/
example : ∃ r ∈ regionsIn Ex.flowDeep, r.node.kind = .eMatch ∧ ∃ out, autoEnum Ex.env 20 5 Ex.iterator
    (.stmt Ex.flowDeep) = .code out ∧ ∃ J : Job, J.returns = true ∧ ∃ x ∈ nodes out,
      Owned (Expands Ex.env) (ExpandsApart Ex.env ["marker"]) J ["marker"] r x := by
  obtain ⟨out, ho, _⟩ := Ex.of_check (o := autoEnum Ex.env 20 5 Ex.iterator (.stmt Ex.flowDeep))
    (p := fun _ => true) (by decide +kernel)
  obtain ⟨J, hj, h1⟩ := C20 Ex.env 20 5 _ [.ofIdents ["Iterator"]] none Ex.flowDeep
    (parseArgs_iff _ _ _ |>.mp rfl) rfl (by decide +kernel) (by decide +kernel) (fun i as b h => by cases h)
    _ (.inr ⟨rfl, rfl⟩) out ho
  refine ⟨_, .head _, rfl, out, ho, J, ?_, h1 _ (.head _)⟩
  rcases hj with rfl | ⟨h, _⟩
  · rfl
  · cases h

/-- A context of an inner attribute with marker `c` in one with marker `a`. -/
def Ex.innerCx : Cx :=
  { ident := "__Enum5", args := [.ofIdents ["Iterator"]], marker := "c", markers := ["c", "a"], root := false,
    mode := .default, lastMode := .default, hasChild := false, variants := [], errs := [], traits := [], panics := [],
    log := [] }

example : ∃ x ∈ nodes (visit Ex.env 20 .visitor {} Ex.innerCx Ex.twoDeep).2, True := by
  obtain ⟨x, hx, _⟩ := C20_visit Ex.env 20 .visitor {} Ex.innerCx Ex.twoDeep {} (fun _ => rfl) (by decide +kernel)
    (by decide +kernel) (by decide +kernel) _ (.head _)
  exact ⟨x, hx, trivial⟩

end AutoEnums
