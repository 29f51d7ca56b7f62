import Verif.Lemmas.PendLoop

/-! # The pass over the result expression -/

namespace AutoEnums

open Spec

theorem pend_of_roleP {J : Job} {H : Hit} {r : Role} {k : Kind} {as : List Attr} {ks : List Node}
    (h : roleP J r k as ks = .plain) : pend J H r (.mk k as ks) = pend J H .plain (.mk k as ks) := by
  rw [pend, pend, h, roleP_plain]

/-- Kinds with which the pass goes on. -/
def leads : Kind → Bool
  | .eBlock _ | .eUnsafe | .eMatch | .eIf | .eLoop _ | .eMethodCall _ | .eParen | .sExpr false => true
  | _ => false

theorem pend_result_other {J : Job} {H : Hit} {k : Kind} {as : List Attr} {ks : List Node}
    (h : leads k = false) : pend J H .result (.mk k as ks) = pend J H .plain (.mk k as ks) := by
  have hr : roleP J .result k as ks = .result ∨ roleP J .result k as ks = .plain := by
    simp only [roleP, role]
    cases J.branches <;> cases diverges J.marker (.mk k as ks) <;> simp
  rcases hr with hr | hr
  · rw [pend, pend_plain, hr]
    have h1 : ∀ n i, kidRoleP .result k n i = .plain := by
      intro n i
      cases k <;> first
        | (simp [leads] at h; done)
        | rfl
        | skip
      rename_i b
      cases b
      · simp [leads] at h
      · rfl
    have h2 : ∀ i, kidH H .result k as i = kidH H .plain k as i := by
      intro i
      cases k <;> first
        | (simp [leads] at h; done)
        | rfl
        | skip
    have h3 : ∀ ks', kidsP J H .result k as ks ks' = kidsP J H .plain k as ks ks' := by
      intro ks'
      unfold kidsP
      split <;> simp
    simp only [h1, h2, h3]
  · exact pend_of_roleP hr

theorem grammatical_mk {k : Kind} {as : List Attr} {ks : List Node}
    (h : grammatical (.mk k as ks) = true) (hk : hidesCode k = false) :
    kidsOk k ks = true ∧ grammaticalL ks = true := by
  rw [grammatical, hk] at h
  simpa using h

/-! ## Blocks -/

theorem pendL_congr' {J : Job} {Hs : Nat → Hit} {rs rs' : Nat → Role} : ∀ {l : List Node},
    (∀ i, i < l.length → rs i = rs' i) → pendL J Hs rs l = pendL J Hs rs' l := by
  intro l
  induction l generalizing Hs rs rs' with
  | nil => intro; rfl
  | cons a l ih =>
    intro h
    rw [pendL, pendL, h 0 (by simp), ih fun i hi => h (i + 1) (by simp; omega)]

theorem childLast_cons (cx : Cx) (s t : Node) (l : List Node) :
    childLast cx (s :: t :: l) = ((childLast cx (t :: l)).1, s :: (childLast cx (t :: l)).2) := by
  rw [childLast.eq_def]
  split
  · contradiction
  · rename_i heq; simp at heq
  · rename_i heq; simp at heq
  · rename_i heq
    simp only [List.cons.injEq] at heq
    simp_all

theorem childLast_pend {J : Job} {Hs : Nat → Hit} : ∀ {l tl : List Node} {cx : Cx}, Does J cx →
    J.branches = true → (l.all fun n => isStatement n.kind) = true →
    grammaticalL l = true → AlikeL J.en tl (pendL J Hs (fun _ => .plain) l) →
    (∀ as e, .mk (.sExpr false) as [e] ∈ l → ∀ (H : Hit) t cx, Does J cx → 
      Alike J.en t (pend J H .plain e) → Alike J.en (childExpr cx t).2 (pend J H .result e)) →
    AlikeL J.en (childLast cx tl).2
      (pendL J Hs (fun i => if i + 1 = l.length then .result else .plain) l) := by
  intro l
  induction l generalizing Hs with
  | nil => intro tl cx _ _ _ _ h _; rw [alikeL_nil h]; unfold childLast; rfl
  | cons s l ih =>
    intro tl cx hF hJ hs hg h he
    obtain ⟨t, tl', rfl, h1, h2⟩ := alikeL_inv h
    cases l with
    | cons s2 l =>
      obtain ⟨t2, tl2, rfl, h3, h4⟩ := alikeL_inv h2
      have e1 : (childLast cx (t :: t2 :: tl2)).2 = t :: (childLast cx (t2 :: tl2)).2 := by
        rw [childLast_cons]
      rw [e1, pendL]
      refine .cons ?_ ?_
      · simpa using h1
      · have := ih (Hs := fun i => Hs (i + 1)) (cx := cx) hF hJ (by simp at hs ⊢; exact hs.2)
          (by rw [grammaticalL, Bool.and_eq_true] at hg; exact hg.2) h2
          fun as e hm => he as e (by simp at hm ⊢; exact .inr hm)
        simpa using this
    | nil =>
      cases alikeL_nil h2
      simp only [pendL]
      have hst : isStatement s.kind = true := by simpa using hs
      by_cases hk : ∃ as e, s = .mk (.sExpr false) as [e]
      · obtain ⟨as, e, rfl⟩ := hk
        rw [pend_plain] at h1
        obtain ⟨tks, rfl, h3⟩ := h1.rigid (by simp)
        simp only [kidsP, kidH, hidesCode, Bool.false_eq_true, if_false, pendL] at h3
        obtain ⟨e', m, rfl, h5, h6⟩ := alikeL_inv h3
        cases alikeL_nil h6
        have e2 : (childLast cx [.mk (.sExpr false) as [e']]).2 =
            [.mk (.sExpr false) as [(childExpr cx e').2]] := by
          rw [childLast.eq_def]
        rw [e2, pend]
        have hr : roleP J .result (.sExpr false) as [e] = .result := by
          simp [roleP, role, hJ, diverges, Kind.hasAttrs]
        simp only [hr, kidsP, kidH, hidesCode, Bool.false_eq_true, if_false, pendL, kidRoleP,
          kidRole, List.length_singleton, if_true]
        exact .cons (.node _ _ (.cons (he as e (by simp) _ _ _ hF h5) rfl)) rfl
      · have e3 : pend J (Hs 0) .result s = pend J (Hs 0) .plain s := by
          cases s with
          | mk k as ks =>
            by_cases hl : leads k = true
            · have : k = .sExpr false := by
                cases k <;> first
                  | (simp [leads] at hl; done)
                  | (simp [isStatement, Node.kind] at hst; done)
                  | skip
                rename_i b; cases b
                · rfl
                · simp [leads] at hl
              subst this
              have hg1 := (grammatical_mk (grammaticalL_mem hg List.mem_cons_self) rfl).1
              unfold kidsOk at hg1
              split at hg1 <;> simp_all
            · exact pend_result_other (by simpa using hl)
        have e4 : (childLast cx [t]).2 = [t] := by
          rw [childLast.eq_def]
          split
          · contradiction
          · rename_i as e heq
            cases heq
            exfalso
            cases s with
            | mk k as2 ks =>
              rw [pend_plain] at h1
              obtain ⟨k', tks, h5, h6, h7⟩ := h1.inv
              cases h5
              have := blurK_rigid h6.symm (by simp)
              subst this
              simp only [kidsP, kidH, hidesCode, Bool.false_eq_true, if_false] at h7
              have hlen := h7.length
              rw [pendL_length] at hlen
              match ks, hlen with
              | [e], _ => exact hk ⟨_, _, rfl⟩
          · rename_i heq; cases heq; rfl
          · rename_i heq; simp at heq
        rw [e4]
        simp only [List.length_singleton, if_true, e3]
        exact .cons h1 rfl

/-! ## `if` and `match` -/

theorem wrapBlock_pend {J : Job} {cx : Cx} (hF : Does J cx) {H : Hit} {ss tss : List Node}
    (hf : hasAttrL NAME ss = false) (hg : grammaticalL ss = true)
    (h : AlikeL J.en tss (pendL J (fun _ => H) (fun _ => .plain) ss)) :
    AlikeL J.en (wrapBlock cx tss).2
      (if skipsBlock J.marker ss then pendL J (fun _ => H) (fun _ => .plain) ss
       else wrapAll J (pendL J (fun _ => H) (fun _ => .plain) ss)) := by
  unfold wrapBlock
  have := skipBlock_eq hF.root hf hg (raw_list h)
  rw [hF.marker] at this
  rw [this]
  split
  · exact h
  · exact .cons (.node _ _ (.cons (next_alike hF [] (.node _ _ h)) rfl)) rfl

theorem roleP_branch_if {J : Job} (hJ : J.branches = true) (as : List Attr) (ks : List Node) :
    roleP J .branch .eIf as ks = .branch := by
  simp [roleP, role, hJ]

theorem pend_block_branch {J : Job} (hJ : J.branches = true) (H : Hit) (as : List Attr)
    (ss : List Node) : pend J H .branch (.mk .block as ss) = .mk .block as
      (if skipsBlock J.marker ss then pendL J (fun _ => thr H .block as) (fun _ => .plain) ss
       else wrapAll J (pendL J (fun _ => thr H .block as) (fun _ => .plain) ss)) := by
  rw [pend]
  have : roleP J .branch .block as ss = if skipsBlock J.marker ss then .plain else .branch := by
    simp [roleP, role, hJ]
  rw [this]
  split
  · simp [kidsP, hidesCode, kidH, kidRoleP, kidRole]
  · simp [kidsP, hidesCode, kidH, kidRoleP, kidRole]

theorem pend_eBlock_branch {J : Job} (hJ : J.branches = true) (H : Hit) (l : Option String)
    (as : List Attr) (ss : List Node) : pend J H .branch (.mk (.eBlock l) as ss) = .mk (.eBlock l) as
      (if skipsBlock J.marker ss then
        pendL J (fun _ => kidH H .plain (.eBlock l) as 0) (fun _ => .plain) ss
       else wrapAll J (pendL J (fun _ => kidH H .plain (.eBlock l) as 0) (fun _ => .plain) ss)) := by
  rw [pend]
  have : roleP J .branch (.eBlock l) as ss = if skipsBlock J.marker ss then .plain else .branch := by
    simp [roleP, role, hJ]
  rw [this]
  have hk : ∀ r i, kidH H r (.eBlock l) as i = kidH H .plain (.eBlock l) as 0 := by
    intro r i; cases l <;> rfl
  split
  · simp [kidsP, hidesCode, hk, kidRoleP, kidRole]
  · simp [kidsP, hidesCode, hk, kidRoleP, kidRole]

theorem kidsOk_if {ks : List Node} (h : kidsOk .eIf ks = true) : ∃ c asb ss,
    ks = [c, .mk .block asb ss] ∨
    (∃ l as2 ss2, ks = [c, .mk .block asb ss, .mk (.eBlock l) as2 ss2]) ∨
    ∃ as2 ks2, ks = [c, .mk .block asb ss, .mk .eIf as2 ks2] := by
  unfold kidsOk at h
  split at h <;> first
    | (rename_i heq; cases heq; done)
    | (simp at h; done)
    | skip
  · exact ⟨_, _, _, .inl rfl⟩
  · exact ⟨_, _, _, .inr (.inl ⟨_, _, _, rfl⟩)⟩
  · exact ⟨_, _, _, .inr (.inr ⟨_, _, rfl⟩)⟩
  · simp_all

theorem visitIf_pend {J : Job} (hJ : J.branches = true) : ∀ (o : Node) (H : Hit) (t : Node) (cx : Cx),
    Does J cx → o.kind = .eIf → hasAttr NAME o = false → grammatical o = true →
    Alike J.en t (pend J H .plain o) → Alike J.en (visitIf cx t).2 (pend J H .branch o) := by
  intro o
  induction o using Node.ind with
  | h k as ks ih =>
    intro H t cx hF hk hf hg h
    cases hk
    rw [hasAttr_mk, Bool.or_eq_false_iff] at hf
    have hfk : hasAttrL NAME ks = false := by simpa [Kind.isOpaque] using hf.2
    obtain ⟨hg1, hg2⟩ := grammatical_mk hg rfl
    rw [pend_plain] at h
    obtain ⟨tks, rfl, h2⟩ := h.rigid (by simp)
    rw [pend, roleP_branch_if hJ]
    simp only [kidsP, kidH, hidesCode, Bool.false_eq_true, if_false, kidRoleP] at h2 ⊢
    have hblk : ∀ {asb ss tb}, .mk .block asb ss ∈ ks →
        Alike J.en tb (pend J (thr H .eIf as) .plain (.mk .block asb ss)) → ∃ tss, tb = .mk .block asb tss ∧
          ∀ cx, Does J cx → Alike J.en (.mk .block asb (wrapBlock cx tss).2)
            (pend J (thr H .eIf as) .branch (.mk .block asb ss)) := by
      intro asb ss tb hm hb
      rw [pend_plain] at hb
      obtain ⟨tss, rfl, h3⟩ := hb.rigid (by simp)
      refine ⟨tss, rfl, fun cx hF => ?_⟩
      simp only [kidsP, kidH, hidesCode, Bool.false_eq_true, if_false,
        show (Role.plain = Role.branch) = False by simp] at h3
      rw [pend_block_branch hJ]
      have hfb := hasAttrL_mem hfk _ hm
      rw [hasAttr_mk, Bool.or_eq_false_iff] at hfb
      exact .node _ _ (wrapBlock_pend hF (by simpa [Kind.isOpaque] using hfb.2)
        (grammatical_mk (grammaticalL_mem hg2 hm) rfl).2 h3)
    obtain ⟨c, asb, ss, hks⟩ := kidsOk_if hg1
    rcases hks with rfl | ⟨l, as2, ss2, rfl⟩ | ⟨as2, ks2, rfl⟩
    · -- no `else`
      simp only [pendL] at h2 ⊢
      obtain ⟨c', m, rfl, h3, h4⟩ := alikeL_inv h2
      obtain ⟨b', m', rfl, h5, h6⟩ := alikeL_inv h4
      cases alikeL_nil h6
      obtain ⟨tss, rfl, hw⟩ := hblk (by simp) h5
      unfold visitIf
      exact .node _ _ (.cons h3 (.cons (hw cx hF) rfl))
    · simp only [pendL] at h2 ⊢
      obtain ⟨c', m, rfl, h3, h4⟩ := alikeL_inv h2
      obtain ⟨b', m', rfl, h5, h6⟩ := alikeL_inv h4
      obtain ⟨e', m2, rfl, h7, h8⟩ := alikeL_inv h6
      cases alikeL_nil h8
      obtain ⟨tss, rfl, hw⟩ := hblk (by simp) h5
      rw [pend_plain] at h7
      obtain ⟨tss2, rfl, h9⟩ := h7.rigid (by simp)
      unfold visitIf
      dsimp only [Node.kind, Node.kids, Node.rawAttrs]
      refine .node _ _ (.cons h3 (.cons (hw cx hF) (.cons ?_ rfl)))
      have hk : ∀ r i, kidH (thr H .eIf as) r (.eBlock l) as2 i =
          kidH (thr H .eIf as) .plain (.eBlock l) as2 0 := by
        intro r i; cases l <;> rfl
      have hr : kidRole .branch .eIf ([] : List Attr) 3 2 = .branch := rfl
      simp only [kidsP, hidesCode, Bool.false_eq_true, if_false, hk,
        show (Role.plain = Role.branch) = False by simp] at h9
      have := pend_eBlock_branch hJ (thr H .eIf as) l as2 ss2
      have hfb := hasAttrL_mem hfk (.mk (.eBlock l) as2 ss2) (by simp)
      rw [hasAttr_mk, Bool.or_eq_false_iff] at hfb
      have hfin := wrapBlock_pend (hF.same (wrapBlock_same cx tss))
        (by simpa [Kind.isOpaque] using hfb.2)
        (grammatical_mk (grammaticalL_mem hg2 (n := .mk (.eBlock l) as2 ss2) (by simp)) rfl).2 h9
      exact (Spec.Alike.node _ _ hfin).trans (by rw [← this]; rfl)
    · simp only [pendL] at h2 ⊢
      obtain ⟨c', m, rfl, h3, h4⟩ := alikeL_inv h2
      obtain ⟨b', m', rfl, h5, h6⟩ := alikeL_inv h4
      obtain ⟨e', m2, rfl, h7, h8⟩ := alikeL_inv h6
      cases alikeL_nil h8
      obtain ⟨tss, rfl, hw⟩ := hblk (by simp) h5
      have hek : e'.kind = .eIf := by
        rw [pend_plain] at h7
        obtain ⟨tks2, rfl, h9⟩ := h7.rigid (by simp)
        rfl
      unfold visitIf
      dsimp only
      rw [hek]
      dsimp only
      exact .node _ _ (.cons h3 (.cons (hw cx hF) (.cons (ih _ (by simp) _ _ _
        (hF.same (wrapBlock_same cx tss)) rfl (hasAttrL_mem hfk _ (by simp))
        (grammaticalL_mem hg2 (by simp)) h7) rfl)))

theorem kidsOk_arm {p : String} {ks : List Node} (h : kidsOk (.arm p) ks = true) :
    (∃ b, ks = [b]) ∨ ∃ g b, ks = [g, b] := by
  simp only [kidsOk, Bool.and_eq_true, Bool.or_eq_true, beq_iff_eq] at h
  match ks, h.1 with
  | [b], _ => exact .inl ⟨b, rfl⟩
  | [g, b], _ => exact .inr ⟨g, b, rfl⟩
  | [], h => simp at h
  | _ :: _ :: _ :: _, h => simp at h

theorem wrapArm_pend {J : Job} (hJ : J.branches = true) {H : Hit} {p : String} {as : List Attr}
    {ks : List Node} {t : Node} {cx : Cx} (hF : Does J cx)
    (hf : hasAttr NAME (.mk (.arm p) as ks) = false) (hg : grammatical (.mk (.arm p) as ks) = true)
    (h : Alike J.en t (pend J H .plain (.mk (.arm p) as ks))) :
    Alike J.en (wrapArm cx t).2 (pend J H .branch (.mk (.arm p) as ks)) := by
  have hr : roleP J .branch (.arm p) as ks =
      if skipsArm J.marker (.mk (.arm p) as ks) then .plain else .branch := by
    simp [roleP, role, hJ]
  have hkk := kidsOk_arm (grammatical_mk hg rfl).1
  have h' := h
  rw [pend_plain] at h'
  obtain ⟨tks, rfl, h2⟩ := h'.rigid (by simp)
  simp only [kidsP, kidH, hidesCode, Bool.false_eq_true, if_false,
    show (Role.plain = Role.branch) = False by simp] at h2
  have hsk := skipArm_eq hF.root hf (raw_list h2)
    (by rcases hkk with ⟨b, rfl⟩ | ⟨g, b, rfl⟩ <;> simp)
  rw [hF.marker] at hsk
  unfold wrapArm
  rw [hsk]
  split
  · rename_i hs
    rw [pend_of_roleP (by rw [hr, if_pos hs])]
    exact h
  · rename_i hs
    rw [if_neg hs] at hr
    rw [pend, hr]
    simp only [kidsP, kidH, hidesCode, Bool.false_eq_true, if_false, if_true, kidRoleP]
    rcases hkk with ⟨b, rfl⟩ | ⟨g, b, rfl⟩
    · simp only [pendL, wrapLast] at h2 ⊢
      obtain ⟨b', m, rfl, h3, h4⟩ := alikeL_inv h2
      cases alikeL_nil h4
      exact .node _ _ (.cons (next_alike hF [] h3) rfl)
    · simp only [pendL, wrapLast] at h2 ⊢
      obtain ⟨g', m, rfl, h3, h4⟩ := alikeL_inv h2
      obtain ⟨b', m, rfl, h5, h6⟩ := alikeL_inv h4
      cases alikeL_nil h6
      exact .node _ _ (.cons h3 (.cons (next_alike hF [] h5) rfl))

theorem wrapArms_pend {J : Job} (hJ : J.branches = true) {Hs : Nat → Hit} {rs : Nat → Role} :
    ∀ {arms tl : List Node} {cx : Cx}, Does J cx →
    (∀ i, i < arms.length → rs i = .branch) →
    (arms.all fun n => match n.kind with | .arm _ => true | _ => false) = true →
    hasAttrL NAME arms = false → grammaticalL arms = true →
    AlikeL J.en tl (pendL J Hs (fun _ => .plain) arms) →
    AlikeL J.en (mapA wrapArm cx tl).2 (pendL J Hs rs arms) := by
  intro arms
  induction arms generalizing Hs rs with
  | nil => intro tl cx _ _ _ _ _ h; rw [alikeL_nil h]; rfl
  | cons a arms ih =>
    intro tl cx hF hrs hk hf hg h
    obtain ⟨b, m, rfl, h1, h2⟩ := alikeL_inv h
    simp only [hasAttrL_cons, Bool.or_eq_false_iff] at hf
    rw [grammaticalL, Bool.and_eq_true] at hg
    rw [List.all_cons, Bool.and_eq_true] at hk
    rw [mapA, pendL, hrs 0 (by simp)]
    refine .cons ?_ (ih (hF.same (wrapArm_same cx b)) (fun i hi => hrs (i + 1) (by simp; omega))
      hk.2 hf.2 hg.2 h2)
    cases a with
    | mk k as ks =>
      have hk1 := hk.1
      dsimp only [Node.kind] at hk1
      split at hk1
      · exact wrapArm_pend hJ hF hf.1 hg.1 h1
      · simp at hk1

/-! ## `child_expr` -/

theorem pend_if_result {J : Job} (H : Hit) (as : List Attr) (ks : List Node)
    (hr : roleP J .result .eIf as ks = .result) (hJ : J.branches = true) :
    pend J H .result (.mk .eIf as ks) = pend J H .branch (.mk .eIf as ks) := by
  rw [pend, pend, hr, roleP_branch_if hJ]
  simp [kidsP, kidH, kidRoleP, kidRole]

theorem childExpr_pend {J : Job} : ∀ (o : Node) (seen : List String) (H : Hit) (t : Node) (cx : Cx),
    Does J cx → isExprNode o = true → hasAttr NAME o = false → grammatical o = true →
    labelsOk seen o = true → Alike J.en t (pend J H .plain o) →
    Alike J.en (childExpr cx t).2 (pend J H .result o) := by
  intro o
  induction o using Node.strongInd with
  | h n ih =>
    intro seen H t cx hF he hf hg hlab h
    cases n with
    | mk k as ks =>
    have hdiv := unreachable_eq hF.root (.mk k as ks) hf t ⟨H, h⟩
    rw [hF.marker] at hdiv
    by_cases hb : (!cx.visitLast || diverges J.marker (.mk k as ks)) = true
    · have hr : roleP J .result k as ks = .plain := by
        rw [Bool.or_eq_true] at hb
        simp only [roleP, role]
        rcases hb with hb | hb
        · have : J.branches = false := by rw [← hF.branches]; simpa using hb
          simp [this]
        · simp [hb]
      rw [pend_of_roleP hr]
      cases t with
      | mk k' as' tks =>
        obtain ⟨k2, tks2, heq, _⟩ := Raw.top ⟨H, h⟩
        cases heq
        rw [childExpr.eq_def]
        dsimp only
        rw [hdiv, if_pos hb]
        exact h
    have hJ : J.branches = true := by
      rw [← hF.branches]; simp at hb; exact hb.1
    have hnd : diverges J.marker (.mk k as ks) = false := by simp at hb; exact hb.2
    have hr : roleP J .result k as ks = .result := by simp [roleP, role, hJ, hnd]
    have hf0 := hf
    rw [hasAttr_mk, Bool.or_eq_false_iff] at hf
    by_cases hl : leads k = true
    rotate_left
    · have hl : leads k = false := by simpa using hl
      rw [pend_result_other hl]
      cases t with
      | mk k' as' tks =>
        obtain ⟨k2, tks2, heq, hk2⟩ := Raw.top ⟨H, h⟩
        cases heq
        have hl' : leads k' = false := by
          by_cases hp : ∃ p, k = .ePath false p
          · obtain ⟨p, rfl⟩ := hp
            obtain ⟨p', rfl, _⟩ := blurK_path hk2
            rfl
          · rw [blurK_rigid hk2 fun p e => hp ⟨p, e⟩]; exact hl
        rw [childExpr.eq_def]
        dsimp only
        rw [hdiv, if_neg hb]
        split <;> first | (simp [leads] at hl'; done) | exact h
    have hop : k.isOpaque = false := by cases k <;> first | rfl | (simp [leads] at hl; done)
    have hfk : hasAttrL NAME ks = false := by simpa [hop] using hf.2
    have hnb : ∀ l, k ≠ .eBreak l := by rintro l rfl; simp [leads] at hl
    obtain ⟨hg1, hg2⟩ := grammatical_mk hg (by rw [hidesCode_eq, hop])
    rw [labelsOk.eq_def] at hlab
    dsimp only at hlab
    rw [hidesCode_eq, hop, Bool.false_or, Bool.and_eq_true, Bool.and_eq_true] at hlab
    obtain ⟨⟨hl1, hl2⟩, hl3⟩ := hlab
    have h0 := h
    rw [pend_plain, kidsP_plain _ _ _ _ _ _ hnb, hidesCode_eq, hop] at h
    simp only [Bool.false_eq_true, if_false] at h
    obtain ⟨tks, rfl, h2⟩ := h.rigid (by rintro p rfl; simp [leads] at hl)
    have hstm : ∀ as2 e, .mk (.sExpr false) as2 [e] ∈ ks → (∀ seen', labelsOkL seen' ks = true →
        ∀ (H : Hit) t cx, Does J cx → Alike J.en t (pend J H .plain e) →
          Alike J.en (childExpr cx t).2 (pend J H .result e)) := by
      intro as2 e hm seen' hl3 H t cx hF h
      have hge := grammatical_mk (grammaticalL_mem hg2 hm) rfl
      have hfe := hasAttrL_mem hfk _ hm
      rw [hasAttr_mk, Bool.or_eq_false_iff] at hfe
      have hle := labelsOkL_mem hl3 hm
      rw [labelsOk.eq_def] at hle
      simp only [hidesCode, Bool.false_or, labelOf, Bool.true_and, Option.toList_none,
        List.nil_append, labelsOkL, Bool.and_true] at hle
      have hsz : sizeOf e < sizeOf (Node.mk k as ks) :=
        Nat.lt_trans (Node.sizeOf_kid (by simp)) (Node.sizeOf_kid hm)
      exact ih e hsz seen' H t cx hF (by simpa [kidsOk] using hge.1)
        (by simpa [Kind.isOpaque] using hfe.2) (by simpa [grammaticalL] using hge.2) hle h
    rw [childExpr.eq_def]
    dsimp only
    rw [hdiv, if_neg hb]
    cases k <;> first | (simp [leads] at hl; done) | skip
    case eIf => exact pend_if_result H as ks hr hJ ▸ visitIf_pend hJ _ H _ _ hF rfl hf0 hg h0
    all_goals
      rw [pend, hr, hidesCode_eq, hop]
      simp only [Bool.false_eq_true, if_false, kidsP, show (Role.result = Role.branch) = False by simp,
        kidRoleP, kidRole, true_and]
    case eBlock l =>
      have hk : ∀ i, kidH H .result (.eBlock l) as i = kidH H .plain (.eBlock l) as i := by
        intro i; cases l <;> rfl
      simp only [hk]
      exact .node _ _ (childLast_pend hF hJ (by simpa [kidsOk] using hg1) hg2 h2
        fun as2 e hm => hstm as2 e hm _ hl3)
    case eUnsafe =>
      exact .node _ _ (childLast_pend hF hJ (by simpa [kidsOk] using hg1) hg2 h2
        fun as2 e hm => hstm as2 e hm _ hl3)
    case eMatch =>
      cases ks with
      | nil => simp [kidsOk] at hg1
      | cons s arms =>
        simp only [pendL] at h2 ⊢
        obtain ⟨s', m, rfl, h3, h4⟩ := alikeL_inv h2
        simp only [hasAttrL_cons, Bool.or_eq_false_iff] at hfk
        rw [grammaticalL, Bool.and_eq_true] at hg2
        rw [kidsOk, Bool.and_eq_true] at hg1
        exact .node _ _ (.cons h3 (wrapArms_pend hJ hF (by simp) hg1.2 hfk.2 hg2.2 h4))
    case eLoop l =>
      refine .node _ _ (loopVisitL_pend hF h2 fun i n hi cx t hF ht => ?_)
      have hm := List.mem_of_getElem? hi
      have := loopVisit_pend l n false _ _ t cx hF (hasAttrL_mem hfk n hm) (grammaticalL_mem hg2 hm)
        (labelsOkL_mem hl3 hm) (by rintro x rfl; simp [labelOf]) (by simp) (by
          intro b hb
          cases b with
          | none => simp [kidH, push]
          | some x =>
            cases l with
            | none => simp [breakMatches] at hb
            | some y =>
              simp only [breakMatches, Bool.not_false, Bool.true_and, Option.isNone_some,
                Bool.false_or, beq_iff_eq] at hb
              simp [kidH, push, hb]) ht
      have e : orH (kidH H .plain (.eLoop l) as i) (breakMatches l false) =
          kidH H .result (.eLoop l) as i := by
        funext b
        cases b with
        | none => simp [orH, kidH, push, breakMatches]
        | some x =>
          cases l with
          | none => simp [orH, kidH, push, breakMatches]
          | some y => by_cases hy : y = x <;> simp [orH, kidH, push, breakMatches, hy]
      rw [e] at this
      exact this
    case eMethodCall m =>
      cases ks with
      | nil => rw [alikeL_nil h2]; exact .node _ _ rfl
      | cons e args =>
        simp only [pendL] at h2 ⊢
        obtain ⟨e', m', rfl, h3, h4⟩ := alikeL_inv h2
        simp only [hasAttrL_cons, Bool.or_eq_false_iff] at hfk
        rw [grammaticalL, Bool.and_eq_true] at hg2
        simp only [kidsOk, List.all_cons, Bool.and_eq_true] at hg1
        exact .node _ _ (.cons (ih e (Node.sizeOf_kid (by simp)) _ _ _ _ hF hg1.1 hfk.1 hg2.1
          (labelsOkL_mem hl3 (by simp)) h3) (by simpa [kidH] using h4))
    case eParen =>
      cases ks with
      | nil => simp [kidsOk] at hg1
      | cons e rest =>
        cases rest with
        | cons => simp [kidsOk] at hg1
        | nil =>
          simp only [pendL] at h2 ⊢
          obtain ⟨e', m', rfl, h3, h4⟩ := alikeL_inv h2
          cases alikeL_nil h4
          simp only [hasAttrL_cons, Bool.or_eq_false_iff] at hfk
          rw [grammaticalL, Bool.and_eq_true] at hg2
          simp only [kidsOk] at hg1
          exact .node _ _ (.cons (ih e (Node.sizeOf_kid (by simp)) _ _ _ _ hF hg1 hfk.1 hg2.1
            (labelsOkL_mem hl3 (by simp)) h3) rfl)
    case sExpr b => simp [isExprNode, Node.kind] at he

end AutoEnums
