import Verif.Lemmas.Settled

/-! # No `auto_enum` attribute is left where it would be looked at: successful runs -/

namespace AutoEnums

open Spec Judg

theorem rebuild_settled {n : Node} {ks : List Node} (h : Throughout Once n)
    (hk : ∀ c ∈ ks, Throughout Settled c) (ha : looked n.kind = true → ∀ a ∈ n.rawAttrs, named "auto_enum" a = false)
    (hs : ∀ kids, StmtOk n.kind kids) (hl : ks.length = n.sub.length) : Throughout Settled (n.rebuild ks) := by
  obtain ⟨ks', e1, h1, h2, h3⟩ := throughout_rebuild (R := Settled) h hk
    (fun kids _ _ => ⟨ha, hs _⟩) (fun ho => by rw [hl, sub_length ho])
  rw [e1, throughout_mk, hidesCode_eq]
  exact ⟨h1, h2, h3⟩

theorem rebuild_once {n : Node} {ks : List Node} (h : Throughout Once n)
    (hk : ∀ c ∈ ks, Throughout Settled c) (he : n.kind.isExpr = true) (hl : ks.length = n.sub.length) :
    Throughout Once (n.rebuild ks) := by
  obtain ⟨ks', e1, h1, h2, h3⟩ := throughout_rebuild (R := Once) h hk
    (fun kids _ _ => ⟨h.top.once, (by intro p hp; rw [hp] at he; cases he), stmtOk_isExpr he _⟩)
    (fun ho => by rw [hl, sub_length ho])
  rw [e1, throughout_mk, hidesCode_eq]
  exact ⟨h1, h2, fun ho c hc => settled_once (h3 ho c hc)⟩

theorem Run.settles {env : Env} {j : Judg} (h : Run env j) : j.Settles := by
  induction h with
  | nil => intro _ c hc; simp at hc
  | cons h1 h2 ih1 ih2 =>
    intro hn c hc
    rw [List.mem_cons] at hc
    rcases hc with rfl | hc
    · exact ih1 (hn _ (by simp))
    · exact ih2 (fun c hc => hn c (by simp [hc])) c hc
  | @plain cx vk sc n cx2 ks semi _ _ hname hnone hr _ hc ih =>
    intro hk hn
    have hn1 := pre_once vk (enter vk sc n) cx n hn
    have hk1 := pre_isExpr vk (enter vk sc n) cx n hk
    exact post_settled (rebuild_settled hn1 (ih hn1.below)
      (fun hl => findRemoveAttr_absent hnone (carries_hasAttrs (looked_carries hl)))
      (stmtOk_isExpr hk1) (Run.shape hr).1) hc
  | @child cx vk sc n attr n1 toks cx1 ch cx2 ks semi ch' n3 _ _ hname hfind hform hm _ _ hr _ hr2 _ _ hc _ ih1 ih2 =>
    intro hk hn
    have hn1 := pre_once vk (enter vk sc n) cx n hn
    have hk1 := pre_isExpr vk (enter vk sc n) cx n hk
    have hn1' := once_removed hn1 hfind
    have hk1' : n1.kind.isExpr = true := by rw [(findRemoveAttr_sub hfind).2.1]; exact hk1
    refine post_settled (ih2 (by rw [Node.rebuild_kind]; exact hk1') ?_
      (rebuild_once hn1' (ih1 hn1'.below) hk1' (Run.shape hr).1)) hc
    intro i as b he
    have hk2 := congrArg Node.kind he
    have has := congrArg Node.rawAttrs he
    rw [Node.rebuild_kind, (findRemoveAttr_sub hfind).2.1] at hk2
    rw [Node.rebuild_attrs] at has
    rw [show as = n1.rawAttrs from has.symm]
    exact findRemoveAttr_gone hfind (hn1.top.once (by rw [hk2]; rfl))
  | @part cx vk sc n cx2 ks _ _ hr _ hc ih =>
    intro hk hauto hn
    have hn1 := preSub_once vk sc cx n hn
    obtain ⟨s1, s2, s3⟩ := preSub_shape vk sc cx n
    have hset : Throughout Settled ((preSub vk sc cx n).2.rebuild ks) := by
      refine rebuild_settled hn1 (ih hn1.below) ?_ ?_ (Run.shape hr).1
      · intro hl a ha
        rw [s1] at hl
        exact hauto hl a (s3.subset ha)
      · intro kids b hb
        rw [s1] at hb
        rcases hk with ⟨p, h⟩ | ⟨p, h⟩ <;> rw [h] at hb <;> cases hb
    cases vk with
    | dummy => exact hset
    | visitor => exact findRemoveAttrs_settled hset
  | oneExpr hk _ ih => exact fun hn => ih hk hn
  | @oneStmt vk sc semi cx e cx' e' as hr ih =>
    intro hn
    rw [Throughout.open rfl] at hn
    obtain ⟨k', h1, h2⟩ := hn.1.stmt semi rfl
    simp only [List.map_cons, List.map_nil, List.cons.injEq, and_true] at h1
    have hk : e.kind.isExpr = true := by rw [h1]; exact exprKind_isExpr h2
    rw [Throughout.open rfl]
    refine ⟨⟨fun h => by simp [looked, isExpression] at h, fun _ _ => ⟨_, rfl, isExpr_kind (Run.shape hr hk)⟩⟩, ?_⟩
    simpa using ih hk (hn.2 _ (by simp))
  | @oneArm vk sc cx n cx' n' p hk _ ih =>
    intro hn
    exact ih (.inl ⟨p, hk⟩) (by rw [hk]; simp [looked, isExpression]) hn
  | @oneLocal vk sc cx n cx' n' p hk hno _ ih =>
    intro hn
    refine ih (.inr ⟨p, hk⟩) (fun _ => ?_) hn
    rw [anyAttr_carries (by rw [hk]; rfl), List.any_eq_false] at hno
    intro a ha
    simpa [NAME] using hno a ha
  | @oneLocalChild cx attr n1 toks n cx1 ch vk sc cx2 n2 ch' n3 p hk hname _ hfind htoks hm _ _ hr1 _ hr2 _ _ _ ih1 ih2 =>
    intro hn
    obtain ⟨ha0, ha1, _, l1, l2, he, he'⟩ := Node.findRemoveAttr_some hfind
    have hmem : attr ∈ n.rawAttrs := by rw [he]; simp
    have hexp := hn.top.init p hk ⟨attr, hmem, by rw [named_iff]; exact ha1⟩
    have hgone := findRemoveAttr_gone hfind (hn.top.once (by rw [hk]; rfl))
    have hkind : n1.kind = .sLocal p := by rw [(findRemoveAttr_sub hfind).2.1]; exact hk
    have h2 := ih1 (.inr ⟨p, hkind⟩) (fun _ => hgone) (once_removed hn hfind)
    obtain ⟨s1, s2, s3, s4⟩ := Run.shape hr1
    have hexpr : ∀ c ∈ n2.kids, c.kind.isExpr = true := by
      refine s4 (by rw [hkind]; rfl) ?_
      rw [(findRemoveAttr_sub hfind).2.2]
      intro c hc
      exact exprKind_isExpr (hexp c.kind (List.mem_map_of_mem hc))
    cases n2 with
    | mk k2 as2 ks2 =>
      simp only [Node.kind, Node.kids, Node.rawAttrs] at s1 s2 hexpr
      have s1' : k2 = .sLocal p := by rw [s1]; exact hkind
      subst s1'
      rw [Throughout.open rfl] at h2
      obtain ⟨g1, g2, g3⟩ := ih2 (.inr (.inl ⟨_, _, _, rfl, fun c hc => hexpr c (List.mem_of_mem_head? hc)⟩)) (by
        cases ks2 with
        | nil => rintro i as b he; cases he
        | cons e els => exact settled_closure (h2.2 e (by simp)))
        (fun c hc => settled_once (h2.2 c hc)) (fun _ _ c hc => h2.2 c (List.mem_of_mem_tail hc))
      obtain ⟨p', g4⟩ := g3 p rfl
      cases n3 with
      | mk k3 as3 ks3 =>
        simp only [Node.kind, Node.kids, Node.rawAttrs] at g1 g2 g4
        subst g2 g4
        rw [Throughout.open rfl]
        exact ⟨⟨fun _ a ha => hgone a (s2.subset ha), by simp [StmtOk]⟩, g1⟩
  | @oneBlock vk sc cx cx' ks n h1 h2 h3 hr ih =>
    intro hn
    refine rebuild_settled hn (ih hn.below) (fun hl => ?_) ?_ (Run.shape hr).1
    · exfalso
      cases n with
      | mk k as ks0 =>
        simp only [Node.kind] at h1 h2 h3 hl
        cases k <;> first
          | (simp [Kind.isExpr] at h1; done) | (simp [Kind.isStmt] at h2; done)
          | exact absurd rfl (h3 _) | (simp [looked, isExpression] at hl; done)
    · intro kids b hb
      rw [hb] at h2; cases h2
  | @oneInert n cx vk sc h1 h2 h3 _ =>
    intro hn
    cases n with
    | mk k as ks =>
      simp only [Node.kind] at h1 h2
      rw [throughout_mk] at hn ⊢
      refine ⟨⟨fun hl => ?_, hn.1.stmt⟩, hn.2.1, fun ho => ?_⟩
      · exfalso
        cases k <;> first
          | (simp [Kind.isStmt] at h1; done) | exact absurd rfl (h2 _) | (simp [looked, isExpression] at hl; done)
      · exfalso
        cases k <;> first
          | (simp [Kind.isStmt] at h1; done) | exact absurd rfl (h2 _) | (simp [hidesCode] at ho; done) | skip
        obtain ⟨k', h4, _⟩ := hn.1.stmt _ rfl
        obtain ⟨e, rfl⟩ : ∃ e, ks = [e] := by
          rw [← List.length_eq_one_iff]
          simpa using congrArg List.length h4
        exact h3 _ _ _ rfl
  | exprDummy _ _ ih => exact fun _ _ hn => ih hn
  | exprBuild _ _ ih => exact ih
  | target _ _ _ ih => exact fun hn => ih ((childExpr_Wr _ _).throughout once_lax hn)
  | targetExit _ _ _ ih => exact fun hn => ih ((childExpr_Wr _ _).throughout once_lax hn)
  | buildExpr _ hr _ ih => exact fun hk _ hn => built_settled (ih hn) (Run.shape hr hk)
  | @buildClosure cx b _ _ i as _ hr _ ih =>
    intro hk hcl hn
    refine built_settled ?_ rfl
    rw [Throughout.open rfl] at hn ⊢
    refine ⟨⟨fun _ => hcl _ _ _ rfl, by simp [StmtOk]⟩, ?_⟩
    simp only [List.mem_singleton, forall_eq] at hn ⊢
    exact ih hn.2
  | @stmtExpr semi cx e cx' e' as _ ih =>
    intro ht hcl hn _
    rcases ht with ⟨b, as, e, h1, h2⟩ | ⟨_, _, _, h1, _⟩ | ⟨_, _, _, _, _, h1⟩ <;> cases h1
    refine ⟨?_, rfl, by simp [Node.kind]⟩
    simp only [Node.kids, List.mem_singleton, forall_eq] at hn ⊢
    exact ih h2 hcl hn
  | stmtLocalDummy h hd _ ih =>
    intro _ _ hn _
    exact ⟨ih hn, rfl, fun _ _ => ⟨_, rfl⟩⟩
  | stmtLocal h _ _ ih =>
    intro ht hcl hn htail
    rcases ht with ⟨b, as, e, h1, _⟩ | ⟨_, _, _, h1, h2⟩ | ⟨_, _, _, _, _, h1⟩ <;> cases h1
    refine ⟨?_, rfl, fun _ _ => ⟨_, rfl⟩⟩
    simp only [Node.kids, List.mem_cons, forall_eq_or_imp] at hn ⊢
    exact ⟨ih (h2 _ (by simp)) hcl hn.1, htail _ rfl⟩
  | stmtFnDummy h hd _ ih =>
    intro _ _ hn _
    exact ⟨ih hn, rfl, by simp [Node.kind]⟩
  | @stmtFnExit cx ret asb ss cx1 cx' b' name as h _ _ _ _ hr ih =>
    intro _ _ hn _
    refine ⟨ih ?_, rfl, by simp [Node.kind]⟩
    simp only [Node.kids, List.mem_singleton, forall_eq] at hn ⊢
    exact (childLast_Wr (k := .block) rfl asb ss cx1).throughout once_lax hn
  | @stmtFn cx ret asb ss cx1 cx' b' name as h _ _ _ _ hr _ ih =>
    intro _ _ hn _
    simp only [Node.kids, List.mem_singleton, forall_eq] at hn
    have hset := ih (by
      simp only [List.mem_singleton, forall_eq]
      exact (childLast_Wr (k := .block) rfl asb ss cx1).throughout once_lax hn) b' (by simp)
    obtain ⟨ks', hform⟩ : ∃ ks', b' = .mk .block asb ks' := by
      cases hr with
      | cons h1 h2 => exact (Run.shape h1).2 rfl
    subst hform
    unfold builtFn
    split
    · exact ⟨by simpa [Node.kids] using hset, rfl, by simp [Node.kind]⟩
    · refine ⟨?_, rfl, by simp [Node.kind]⟩
      simp only [Node.kids, List.mem_singleton, forall_eq]
      rw [Throughout.open rfl] at hset ⊢
      refine ⟨⟨by simp [looked, isExpression], by simp [StmtOk]⟩, fun c hc => ?_⟩
      rw [List.mem_cons] at hc
      rcases hc with rfl | hc
      · unfold Cx.buildEnum
        rw [throughout_mk]
        exact ⟨settled_lax.nil _ _ (by simp), by simp [macroCall], by simp [hidesCode]⟩
      · exact hset.2 c hc
  | @stmtInert n cx h1 h2 h3 h4 _ =>
    intro ht
    exfalso
    rcases ht with ⟨b, as, e, rfl, _⟩ | ⟨_, _, _, rfl, _⟩ | ⟨_, _, _, _, _, rfl⟩
    · exact h3 _ _ _ rfl
    · exact h2 _ rfl
    · exact h4 _ _ _ _ _ rfl

end AutoEnums
