import Verif.Lemmas.PendStep
import Verif.RunCore
import Verif.Lemmas.Still

/-! # A successful visit does what the specification says -/

namespace AutoEnums

open Spec Judg

/-- What each judgement of a visit amounts to. -/
def Judg.Treats : Judg → Prop
  | one .visitor sc cx t cx' n' => ∀ J seen ts r w o, Ready J w sc cx → Fine J seen r o →
      Alike J.en t (pend J (hits ts) r o) → Alike J.en n' (treat J w ts r o) ∧ Still cx cx'
  | expr .visitor sc _ cx t cx' n' => ∀ J seen ts r w o, Ready J w sc cx → Fine J seen r o →
      isExprNode o = true →
      Alike J.en t (pend J (hits ts) r o) → Alike J.en n' (treat J w ts r o) ∧ Still cx cx'
  | part .visitor sc cx t cx' n' => ∀ J seen ts r w o, Ready J w sc cx → Fine J seen r o →
      ((∃ p, o.kind = .arm p) ∨ ∃ p, o.kind = .sLocal p) →
      Alike J.en t (pend J (hits ts) r o) → Alike J.en n' (treat J w ts r o) ∧ Still cx cx'
  | many .visitor sc cx tl cx' nl => ∀ J seen (T : Nat → List Target) (ρ : Nat → Role) w ol,
      Ready J w sc cx → FineL J seen ρ ol →
      AlikeL J.en tl (pendL J (fun i => hits (T i)) ρ ol) →
      AlikeL J.en nl (treatL J w T ρ ol) ∧ Still cx cx'
  | _ => True

theorem pend_kind {J : Job} {H : Hit} {r : Role} {k : Kind} {as : List Attr} {ks : List Node}
    {t : Node} (h : Alike J.en t (pend J H r (.mk k as ks))) :
    ∃ k' tks, t = .mk k' as tks ∧ blurK J.en k' = blurK J.en k := by
  rw [pend] at h
  obtain ⟨k', tks, rfl, hb, _⟩ := h.inv
  exact ⟨k', tks, rfl, hb⟩

theorem isExpr_blur {en : Ident} {k k' : Kind} (h : blurK en k' = blurK en k) :
    k'.isExpr = k.isExpr := by
  by_cases hp : ∃ p, k = .ePath false p
  · obtain ⟨p, rfl⟩ := hp
    obtain ⟨p', rfl, _⟩ := blurK_path h
    rfl
  · rw [blurK_rigid h fun p hp' => hp ⟨p, hp'⟩]

theorem isOpaque_blur {en : Ident} {k k' : Kind} (h : blurK en k' = blurK en k) :
    k'.isOpaque = k.isOpaque := by
  by_cases hp : ∃ p, k = .ePath false p
  · obtain ⟨p, rfl⟩ := hp
    obtain ⟨p', rfl, _⟩ := blurK_path h
    rfl
  · rw [blurK_rigid h fun p hp' => hp ⟨p, hp'⟩]

theorem isExprNode_eq {o : Node} : isExprNode o = o.kind.isExpr := by
  cases o with
  | mk k as ks => cases k <;> rfl

theorem Fine.name {J : Job} {seen : List String} {r : Role} {k : Kind} {as : List Attr}
    {ks : List Node} (h : Fine J seen r (.mk k as ks)) : anyAttr as NAME = false := by
  have := h.free
  rw [hasAttr_mk, Bool.or_eq_false_iff] at this
  exact this.1

/-- Nothing is pending at blocks, functions and expression statements besides wrapping. -/
theorem pend_virt {J : Job} {ts : List Target} {r : Role} {k : Kind} {as : List Attr}
    {ks : List Node} (w : Where) (hk : hidesCode k = false) (hx : isExpression k = false)
    (h1 : ∀ p, k ≠ .arm p) (h2 : ∀ p, k ≠ .sLocal p) :
    pend J (hits ts) r (.mk k as ks) = .mk k as
      (pendL J (fun i => hits (kidTargets ts (role J r k as ks) k as i))
        (fun i => kidRole (role J r k as ks) k as ks.length i)
        (vkids J w ts (role J r k as ks) k as ks)) := by
  have hro : roleP J r k as ks = role J r k as ks := by
    unfold roleP
    split
    · rename_i hr
      subst hr
      simp [role, hx]
    · rfl
  have hkr : ∀ r n i, kidRoleP r k n i = kidRole r k as n i := by
    intro r n i
    cases k <;> first
      | exact absurd rfl (h1 _)
      | exact absurd rfl (h2 _)
      | rfl
      | (simp only [kidRoleP, kidRole]; done)
      | (rename_i b; cases b <;> rfl)
  rw [← virt_pend (w := w) (J := J) (k := k) rfl (by rintro rfl; simp [isExpression] at hx)
      (by rintro rfl; simp [isExpression] at hx), pend, hro, hk]
  simp only [Bool.false_eq_true, if_false, hkr, kidH_hits]

theorem vkind_other {J : Job} {w : Where} {k : Kind} {as : List Attr} {ks : List Node}
    (h : k ≠ .eTry) : vkind J w k as ks = k := by simp [vkind, h]

theorem vkind_opaque {J : Job} {w : Where} {k : Kind} {as : List Attr} {ks : List Node}
    (h : hidesCode k = false) : hidesCode (vkind J w k as ks) = false := by
  unfold vkind
  split
  · rfl
  · exact h

theorem post_plain {sc : Scope} {cx : Cx} {k : Kind} {as : List Attr} {ks : List Node}
    (hs : sc.foreign = false) (hk : ∀ p x, k ≠ .eMacro p x)
    (hc : Clean (post .visitor sc cx (.mk k as ks)).1) :
    (post .visitor sc cx (.mk k as ks)).2 =
      .mk k (if k.hasAttrs then dropFirst (named "never") as else as) ks := by
  have hv : ∀ cx : Cx, visitMarker sc cx (.mk k as ks) =
      (cx.assert (!sc.foreign || cx.marker != DEFAULT_MARKER) .markerForeign, .mk k as ks) := by
    intro cx
    unfold visitMarker
    dsimp only
    split
    · rename_i heq
      simp only [Node.mk.injEq] at heq
      exact absurd heq.1 (hk _ _)
    · rfl
  unfold post at hc ⊢
  dsimp only at hc ⊢
  rw [hs] at hc ⊢
  simp only [Bool.not_false, Bool.true_or, if_true, hv] at hc ⊢
  exact findRemoveAttrs_pend hs hc

theorem clean_findRemoveAttrs {sc : Scope} {cx : Cx} {n : Node}
    (h : Clean (findRemoveAttrs sc cx n).1) : Clean cx := by
  unfold findRemoveAttrs at h
  split at h
  · exact h
  · dsimp only at h
    split at h
    · exact (clean_error h).elim
    · split at h
      · dsimp only at h
        split at h
        · exact h
        · exact (clean_error h).elim
      · exact h

/-- A macro call after the visit. -/
theorem post_macro {J : Job} {sc : Scope} {cx : Cx} {p : Path} {x : String} {as : List Attr}
    {ks : List Node} (hF : Does J cx) (hcx : Clean cx) (hs : sc.foreign = false)
    (hc : Clean (post .visitor sc cx (.mk (.eMacro p x) as ks)).1) :
    (p = ⟨false, [⟨J.marker, none⟩]⟩ ∧ ∃ e v, ks = [e] ∧
      (post .visitor sc cx (.mk (.eMacro p x) as ks)).2 =
        construct (dropFirst (named "never") as) J.en v e) ∨
    (p ≠ ⟨false, [⟨J.marker, none⟩]⟩ ∧ (post .visitor sc cx (.mk (.eMacro p x) as ks)).2 =
      .mk (.eMacro p x) (dropFirst (named "never") as) ks) := by
  have hpm : cx.isMarkerExact p = (p == ⟨false, [⟨J.marker, none⟩]⟩) := by
    have := named_iff J.marker ⟨p, .path⟩
    simp only [named, Attr.is] at this
    unfold Cx.isMarkerExact
    rw [hF.marker, ← this]
  have hne : cx.hasError = false := by simp [Cx.hasError, hcx.1]
  unfold post at hc ⊢
  dsimp only at hc ⊢
  rw [hs] at hc ⊢
  simp only [Bool.not_false, Bool.true_or, if_true] at hc ⊢
  have has : cx.assert (!sc.foreign || cx.marker != DEFAULT_MARKER) .markerForeign = cx := by
    rw [hs]; rfl
  by_cases hp : p = ⟨false, [⟨J.marker, none⟩]⟩
  · refine .inl ⟨hp, ?_⟩
    have hmt : cx.isMarkerExact p = true := by rw [hpm]; simpa using hp
    have hbad : (∀ e, ks ≠ [e]) → False := by
      intro hks
      have : visitMarker sc cx (.mk (.eMacro p x) as ks) = (cx.error .markerParse, failedMarker) := by
        unfold visitMarker
        dsimp only
        rw [has, hmt, if_pos rfl]
        split
        · exact absurd rfl (hks _)
        · rfl
      rw [this] at hc
      exact clean_error (clean_findRemoveAttrs hc)
    match ks, hbad with
    | [], hbad => exact (hbad (by simp)).elim
    | a :: b :: l, hbad => exact (hbad (by simp)).elim
    | [e], _ =>
      have : visitMarker sc cx (.mk (.eMacro p x) as [e]) = cx.nextExprAttrs as e := by
        unfold visitMarker
        dsimp only
        rw [has, hmt, if_pos rfl, hne]
        rfl
      rw [this] at hc ⊢
      have h2 : (cx.nextExprAttrs as e).2 = construct as cx.ident (variantIdent cx.variants.length) e := rfl
      rw [h2, hF.ident] at hc ⊢
      unfold construct at hc ⊢
      rw [findRemoveAttrs_pend hs hc]
      exact ⟨e, _, rfl, rfl⟩
  · refine .inr ⟨hp, ?_⟩
    have hmt : cx.isMarkerExact p = false := by rw [hpm]; simpa using hp
    have : visitMarker sc cx (.mk (.eMacro p x) as ks) = (cx, .mk (.eMacro p x) as ks) := by
      unfold visitMarker
      dsimp only
      rw [has, hmt]
      rfl
    rw [this] at hc ⊢
    rw [findRemoveAttrs_pend hs hc]
    rfl

theorem assemble_macro {J : Job} {w : Where} {ts : List Target} {r : Role} {p : Path} {x : String}
    {as : List Attr} {ks ks' : List Node} (hp : p ≠ ⟨false, [⟨J.marker, none⟩]⟩) :
    assemble J w ts r (.eMacro p x) as ks ks' = .mk (.eMacro p x) (strip as) ks := by
  unfold assemble
  dsimp only
  split
  · rw [if_neg hp]; rfl
  · rfl

theorem assemble_marker {J : Job} {w : Where} {ts : List Target} {r : Role} {x : String}
    {as : List Attr} {e : Node} {ks' : List Node} :
    assemble J w ts r (.eMacro ⟨false, [⟨J.marker, none⟩]⟩ x) as [e] ks' = ctor J (strip as) e := by
  unfold assemble
  dsimp only
  rw [if_pos rfl]
  rfl

theorem hasAttrs_carries {k : Kind} (h : ∀ p x, k ≠ .sMacro p x) : k.hasAttrs = carries k := by
  cases k <;> first | rfl | exact absurd rfl (h _ _)

theorem Run.treats {env : Env} {j : Judg} (h : Run env j) : j.Treats := by
  induction h with
  | @nil vk sc cx =>
    cases vk with
    | dummy => trivial
    | visitor =>
      intro J seen T ρ w ol _ _ h
      cases ol with
      | nil => exact ⟨rfl, .refl _⟩
      | cons a l =>
        rw [pendL] at h
        obtain ⟨_, _, heq, _⟩ := alikeL_inv h
        cases heq
  | @cons vk sc cx n cx1 n' ns cx2 ns' h1 h2 ih1 ih2 =>
    cases vk with
    | dummy => trivial
    | visitor =>
      intro J seen T ρ w ol hR hfine h
      cases ol with
      | nil => cases alikeL_nil h
      | cons o l =>
        rw [pendL, alikeL_cons] at h
        rw [fineL_cons] at hfine
        rw [treatL]
        have g1 := ih1 J seen _ _ w o hR hfine.1 h.1
        have g2 := ih2 J seen (fun i => T (i + 1)) _ w l (hR.same h1.keeps) hfine.2 h.2
        exact ⟨.cons g1.1 g2.1, g1.2.trans g2.2⟩
  | @plain cx vk sc n cx2 ks semi h1 h2 h3 h4 h5 h6 h7 ih =>
    cases vk with
    | dummy => trivial
    | visitor =>
      intro J seen ts r w o hR hfine he h
      cases o with
      | mk k as oks =>
      obtain ⟨k', tks, rfl, hb⟩ := pend_kind h
      have hname : (Node.mk k' as tks).anyAttr NAME = false := anyAttr_mk (by
        rintro b rfl
        have := blurK_rigid hb.symm (by simp)
        subst this
        cases he) hfine.name
      have hent : enter .visitor sc (.mk k' as tks) = sc.check k' := by
        unfold enter
        dsimp only
        rw [hname]
        rfl
      rw [hent] at h2 h5 h7 ih ⊢
      have hR' := hR.enter hb
      have hst : Still cx (pre .visitor (sc.check k') cx (.mk k' as tks)).1 := pre_still hname
      have hpo := fun n => post_still .visitor (sc.check k') cx2 n
      cases hk : hidesCode k with
      | false =>
        have hp := pre_expr hR' he hk hfine h h2
        obtain ⟨k1, pks, hpe, hb1, hl⟩ := hp.inv
        rw [hpe] at h5 h7 ih ⊢
        have hop : k1.isOpaque = false := by
          rw [isOpaque_blur hb1, ← hidesCode_eq]; exact vkind_opaque hk
        have hnm : ∀ p x, k1 ≠ .eMacro p x := by
          rintro p x rfl; cases hop
        simp only [Node.sub, Node.rebuild, hop, Bool.false_eq_true, if_false] at h5 h7 ih ⊢
        obtain ⟨hks, hst2⟩ := ih J _ _ _ (w.enter k) _ (hR'.same (pre_same _ _ _ _))
          (hfine.vkids hk (w.enter k) ts) hl
        refine ⟨?_, (hst.trans hst2).trans (hpo _)⟩
        rw [post_plain hR'.own hnm h7, virt_treat hk (grammatical_mk hfine.gram hk).1 hR.does.tries_returns]
        have hx := isExpr_isExpression he hk
        have hx' : isExpression k = true := hx
        have hca : carries k = true := by cases k <;> first | exact hx' | rfl
        have hh : k1.hasAttrs = true := by
          rw [hasAttrs_blur hb1]
          unfold vkind
          split
          · rfl
          · exact isExpression_hasAttrs hx'
        rw [hh, hca]
        exact .mk hb1 hks
      | true =>
        have hrig : ∀ p, k ≠ .ePath false p := by rintro p rfl; cases hk
        have hk' : k' = k := blurK_rigid hb hrig
        subst hk'
        have hop : k'.isOpaque = true := by rw [← hidesCode_eq]; exact hk
        rw [pend, hk] at h
        simp only [if_true] at h
        have hl : AlikeL J.en tks oks := by
          obtain ⟨_, heq, hl⟩ := h.rigid hrig
          simp only [Node.mk.injEq, true_and] at heq
          subst heq
          cases k' <;> first | (simp [hidesCode] at hk; done) | (cases he; done) | exact hl
        have hseen : AutoEnums.seen cx (.mk k' as tks) = cx := by
          unfold AutoEnums.seen; rw [hname]; rfl
        have hvm : visitMode (sc.check k') cx (.mk k' as tks) = (cx, .mk k' as tks) :=
          visitMode_other (by rintro rfl; cases hk) (by rintro rfl; cases hk)
        have hpre : (pre .visitor (sc.check k') cx (.mk k' as tks)).2 =
            .mk k' (if k'.hasAttrs then dropFirst (named "nested") as else as) tks := by
          unfold pre
          dsimp only
          rw [hseen, hvm]
          dsimp only
          cases hh : k'.hasAttrs with
          | true =>
            refine nestedStep_attrs hR'.own hh ?_
            intro as
            unfold childExpr
            split
            · rfl
            · cases k' <;> first | (simp [hidesCode] at hk; done) | rfl
          | false =>
            unfold nestedStep
            rw [hR'.own]
            simp [Node.findRemoveAttr, hh]
        have hst2 : Still (pre .visitor (sc.check k') cx (.mk k' as tks)).1 cx2 := by
          rw [hpre] at h5
          simp only [Node.sub, hop, if_true] at h5
          cases h5
          exact .refl _
        refine ⟨?_, (hst.trans hst2).trans (hpo _)⟩
        rw [hpre] at h7 ⊢
        simp only [Node.rebuild, hop, if_true] at h7 ⊢
        cases k' with
        | eVerbatim x =>
          rw [post_plain hR'.own (by simp) h7]
          rw [treat]
          exact .node _ _ hl
        | eMacro p x =>
          simp only [Kind.hasAttrs, if_true] at h7 ⊢
          have hF2 : Does J cx2 := (hR.does.same (pre_same _ _ _ _)).same h5.keeps
          rw [treat]
          rcases post_macro hF2 h6 hR'.own h7 with ⟨rfl, e, v, rfl, hres⟩ | ⟨hp, hres⟩
          · rw [hres]
            cases oks with
            | nil => cases alikeL_nil hl
            | cons oe l =>
              obtain ⟨_, _, heq, h1, h2⟩ := alikeL_inv hl
              simp only [List.cons.injEq] at heq
              obtain ⟨rfl, rfl⟩ := heq
              have : l = [] := alikeL_nil h2.symm
              subst this
              rw [assemble_marker]
              exact ctor_alike rfl h1
          · rw [hres, assemble_macro hp]
            exact .node _ _ hl
        | _ => first | (cases he; done) | (cases hk; done)
  | @child cx vk sc n attr n1 toks cx1 ch cx2 ks semi ch' n3 _ _ hn _ _ _ _ _ _ _ _ _ _ _ _ _ =>
    cases vk with
    | dummy => trivial
    | visitor =>
      intro J seen ts r w o hR hfine he h
      cases o with
      | mk k as oks =>
      obtain ⟨k', tks, rfl, hb⟩ := pend_kind h
      have hname : (Node.mk k' as tks).anyAttr NAME = false := anyAttr_mk (by
        rintro b rfl
        have := blurK_rigid hb.symm (by simp)
        subst this
        cases he) hfine.name
      rw [hname] at hn
      cases hn
  | @part cx vk sc n cx2 ks h1 h2 h3 h4 h5 ih =>
    cases vk with
    | dummy => trivial
    | visitor =>
      intro J seen ts r w o hR hfine hkind h
      cases o with
      | mk k as oks =>
      replace hkind : (∃ p, k = .arm p) ∨ ∃ p, k = .sLocal p := hkind
      have hk : hidesCode k = false := by obtain ⟨p, rfl⟩ | ⟨p, rfl⟩ := hkind <;> rfl
      have hrig : ∀ p, k ≠ .ePath false p := by
        rintro p rfl
        obtain ⟨_, h⟩ | ⟨_, h⟩ := hkind <;> cases h
      have hp := preSub_pend hR hkind hfine h h2
      obtain ⟨pks, hpe, hl⟩ := hp.rigid hrig
      rw [hpe] at h3 h5 ih ⊢
      have hop : k.isOpaque = false := by rw [← hidesCode_eq]; exact hk
      have hen : w.enter k = w := by obtain ⟨p, rfl⟩ | ⟨p, rfl⟩ := hkind <;> rfl
      simp only [Node.sub, Node.rebuild, hop, Bool.false_eq_true, if_false] at h3 h5 ih ⊢
      obtain ⟨hks, hst⟩ := ih J _ _ _ w _ (hR.same (preSub_same _ _ _ _)) (hfine.vkids hk w ts) hl
      refine ⟨?_, ((preSub_still _ _ _ _).trans hst).trans (postSub_still _ _ _ _)⟩
      have hh : k.hasAttrs = true := by obtain ⟨p, rfl⟩ | ⟨p, rfl⟩ := hkind <;> rfl
      have hca : carries k = true := by obtain ⟨p, rfl⟩ | ⟨p, rfl⟩ := hkind <;> rfl
      have hpost : (postSub .visitor sc cx2 (.mk k (dropFirst (named "nested") as) ks)).2 =
          .mk k (strip as) ks := by
        unfold postSub at h5 ⊢
        dsimp only at h5 ⊢
        rw [findRemoveAttrs_pend hR.own h5, hh]
        rfl
      rw [hpost, virt_treat hk (grammatical_mk hfine.gram hk).1 hR.does.tries_returns, hca, hen,
        vkind_other (by rintro rfl; obtain ⟨_, h⟩ | ⟨_, h⟩ := hkind <;> cases h)]
      exact .node _ _ hks
  | @oneExpr vk sc cx n cx' n' hx _ ih =>
    cases vk with
    | dummy => trivial
    | visitor =>
      intro J seen ts r w o hR hfine h
      refine ih J seen ts r w o hR hfine ?_ h
      cases o with
      | mk k as oks =>
      obtain ⟨k', tks, rfl, hb⟩ := pend_kind h
      rw [isExprNode_eq]
      exact (isExpr_blur hb).symm.trans hx
  | @oneStmt vk sc semi cx e cx' e' as _ ih =>
    cases vk with
    | dummy => trivial
    | visitor =>
      intro J seen ts r w o hR hfine h
      cases o with
      | mk k as oks =>
      obtain ⟨k', tks, heq, hb⟩ := pend_kind h
      simp only [Node.mk.injEq] at heq
      obtain ⟨rfl, rfl, rfl⟩ := heq
      have hk := blurK_rigid hb.symm (by simp)
      subst hk
      obtain ⟨oe, rfl, hoe⟩ : ∃ oe, oks = [oe] ∧ isExprNode oe = true := by
        have := (grammatical_mk hfine.gram rfl).1
        unfold kidsOk at this
        split at this <;> simp_all
      rw [pend_virt w rfl rfl (by simp) (by simp)] at h
      obtain ⟨pks, heq, hl⟩ := h.rigid (by simp)
      simp only [Node.mk.injEq, true_and] at heq
      subst heq
      have hf := hfine.vkids rfl w ts
      rw [virt_treat rfl (grammatical_mk hfine.gram rfl).1 hR.does.tries_returns,
        vkind_other (by simp)]
      have hen : w.enter (.sExpr semi) = w := rfl
      rw [hen]
      simp only [vkids, pendL, treatL] at hl hf ⊢
      rw [fineL_cons] at hf
      have g := ih J _ _ _ w oe hR hf.1 hoe (alikeL_cons.mp hl).1
      exact ⟨.node _ _ (.cons g.1 rfl), g.2⟩
  | @oneArm vk sc cx n cx' n' p hp _ ih =>
    cases vk with
    | dummy => trivial
    | visitor =>
      intro J seen ts r w o hR hfine h
      refine ih J seen ts r w o hR hfine ?_ h
      cases o with
      | mk k as oks =>
      obtain ⟨k', tks, rfl, hb⟩ := pend_kind h
      have hp' : k' = .arm p := hp
      subst hp'
      exact .inl ⟨p, blurK_rigid hb.symm (by simp)⟩
  | @oneLocal vk sc cx n cx' n' p hp hn _ ih =>
    cases vk with
    | dummy => trivial
    | visitor =>
      intro J seen ts r w o hR hfine h
      refine ih J seen ts r w o hR hfine ?_ h
      cases o with
      | mk k as oks =>
      obtain ⟨k', tks, rfl, hb⟩ := pend_kind h
      have hp' : k' = .sLocal p := hp
      subst hp'
      exact .inr ⟨p, blurK_rigid hb.symm (by simp)⟩
  | @oneLocalChild cx attr n1 toks n cx1 ch vk sc cx2 n2 ch' n3 p hp hn =>
    cases vk with
    | dummy => trivial
    | visitor =>
      intro J seen ts r w o hR hfine h
      cases o with
      | mk k as oks =>
      obtain ⟨k', tks, rfl, hb⟩ := pend_kind h
      have hp' : k' = .sLocal p := hp
      subst hp'
      rw [anyAttr_mk (by simp) hfine.name] at hn
      cases hn
  | @oneBlock vk sc cx cx' ks n h1 h2 h3 _ ih =>
    cases vk with
    | dummy => trivial
    | visitor =>
      intro J seen ts r w o hR hfine h
      cases o with
      | mk k as oks =>
      obtain ⟨k', tks, rfl, hb⟩ := pend_kind h
      simp only [Node.kind] at h1 h2 h3
      have hk' : k' = .block ∨ ∃ a b, k' = .iFn a b := by
        cases k' <;> first
          | (simp [Kind.isExpr] at h1; done)
          | (simp [Kind.isStmt] at h2; done)
          | (exact absurd rfl (h3 _))
          | exact .inl rfl
          | exact .inr ⟨_, _, rfl⟩
      have hkk : k = k' := blurK_rigid hb.symm (by rintro p rfl; simp at hk')
      subst hkk
      have hk : hidesCode k = false := by obtain rfl | ⟨_, _, rfl⟩ := hk' <;> rfl
      have hx : isExpression k = false := by obtain rfl | ⟨_, _, rfl⟩ := hk' <;> rfl
      have hop : k.isOpaque = false := by rw [← hidesCode_eq]; exact hk
      have hen : w.enter k = w := by obtain rfl | ⟨_, _, rfl⟩ := hk' <;> rfl
      have hca : carries k = false := by obtain rfl | ⟨_, _, rfl⟩ := hk' <;> rfl
      rw [pend_virt w hk hx (by rintro p rfl; simp at hk') (by rintro p rfl; simp at hk')] at h
      obtain ⟨pks, heq, hl⟩ := h.rigid (by rintro p rfl; simp at hk')
      simp only [Node.mk.injEq, true_and] at heq
      subst heq
      rw [virt_treat hk (grammatical_mk hfine.gram hk).1 hR.does.tries_returns,
        vkind_other (by rintro rfl; simp at hk'), hen, hca]
      simp only [Node.sub, Node.rebuild, hop, Bool.false_eq_true, if_false] at ih ⊢
      have g := ih J _ _ _ w _ hR (hfine.vkids hk w ts) hl
      exact ⟨.node _ _ g.1, g.2⟩
  | @oneInert n cx vk sc h1 h2 h3 h4 =>
    cases vk with
    | dummy => trivial
    | visitor =>
      intro J seen ts r w o hR hfine h
      cases o with
      | mk k as oks =>
      obtain ⟨k', tks, rfl, hb⟩ := pend_kind h
      simp only [Node.kind] at h1 h2
      have hrig : ∀ p, k' ≠ .ePath false p := by rintro p rfl; simp [Kind.isStmt] at h1
      have hkk : k = k' := blurK_rigid hb.symm hrig
      subst hkk
      have hk : (∃ i, k = .sItem i) ∨ ∃ p x, k = .sMacro p x := by
        cases k <;> first
          | (simp [Kind.isStmt] at h1; done)
          | exact absurd rfl (h2 _)
          | exact .inl ⟨_, rfl⟩
          | exact .inr ⟨_, _, rfl⟩
          | skip
        case sExpr b =>
          exfalso
          obtain ⟨oe, rfl⟩ : ∃ oe, oks = [oe] := by
            have := (grammatical_mk hfine.gram rfl).1
            unfold kidsOk at this
            split at this <;> simp_all
          rw [pend_virt w rfl rfl (by simp) (by simp)] at h
          obtain ⟨pks, heq, hl⟩ := h.rigid (by simp)
          simp only [Node.mk.injEq, true_and] at heq
          subst heq
          simp only [vkids, pendL] at hl
          obtain ⟨a, l, rfl, _, hl⟩ := alikeL_inv hl
          rw [alikeL_nil hl] at h3
          exact h3 _ _ _ rfl
      rw [pend] at h
      have hst : Still cx (AutoEnums.seen cx (.mk k as tks)) := by
        unfold AutoEnums.seen
        rw [anyAttr_mk (by rintro b rfl; simp at hk) hfine.name]
        exact .refl _
      refine ⟨?_, hst⟩
      obtain ⟨i, rfl⟩ | ⟨p, x, rfl⟩ := hk
      · simp only [hidesCode, if_true, kidsP] at h
        rw [treat]
        exact h
      · simp only [hidesCode, if_true, kidsP] at h
        rw [treat]
        exact h
  | _ => trivial

end AutoEnums
