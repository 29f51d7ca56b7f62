import Verif.Lemmas.Virt

/-! # What happens at one node -/

namespace AutoEnums

open Spec

/-! ## Attributes -/

theorem drop_some {s : String} {as as' : List Attr} {a : Attr}
    (h : findRemove (·.is s) as = some (a, as')) :
    as' = dropFirst (named s) as ∧ named s a = true ∧ a ∈ as := by
  induction as generalizing as' with
  | nil => simp [findRemove] at h
  | cons b as ih =>
    unfold findRemove at h
    rw [dropFirst, named_iff]
    split at h
    · rename_i hb
      simp only [Option.some.injEq, Prod.mk.injEq] at h
      obtain ⟨rfl, rfl⟩ := h
      simp [hb, named_iff]
    · rename_i hb
      split at h
      · rename_i c bs hc
        simp only [Option.some.injEq, Prod.mk.injEq] at h
        obtain ⟨rfl, rfl⟩ := h
        obtain ⟨h1, h2, h3⟩ := ih hc
        simp [hb, h1, h2, h3]
      · simp at h

theorem drop_none {s : String} {as : List Attr} (h : findRemove (·.is s) as = none) :
    dropFirst (named s) as = as ∧ ∀ a ∈ as, named s a = false := by
  induction as with
  | nil => simp [dropFirst]
  | cons b as ih =>
    unfold findRemove at h
    rw [dropFirst, named_iff]
    split at h
    · simp at h
    · rename_i hb
      split at h
      · simp at h
      · rename_i hc
        obtain ⟨h1, h2⟩ := ih hc
        simp [hb, h1, named_iff]
        simpa [named_iff] using h2

theorem drop_none_marked {s : String} {as : List Attr}
    (h : findRemove (·.is s) as = none) : marked s as = false := by
  have := (drop_none h).2
  simp only [marked, List.any_eq_false, Bool.and_eq_true, not_and]
  intro a ha h1
  rw [this a ha] at h1
  cases h1

theorem mem_dropFirst {p : Attr → Bool} {a : Attr} {as : List Attr} (h : a ∈ dropFirst p as) :
    a ∈ as := by
  induction as with
  | nil => simp [dropFirst] at h
  | cons b as ih =>
    rw [dropFirst] at h
    split at h
    · simp [h]
    · simp only [List.mem_cons] at h ⊢
      exact h.imp id ih

theorem named_inj {s s' : String} {a : Attr} (h : named s a = true) (h' : named s' a = true) :
    s = s' := by
  unfold named at h h'
  simp only [beq_iff_eq] at h h'
  rw [h] at h'
  simpa using h'

theorem marked_dropFirst {s s' : String} (hs : s ≠ s') (as : List Attr) :
    marked s (dropFirst (named s') as) = marked s as := by
  induction as with
  | nil => rfl
  | cons a as ih =>
    rw [dropFirst]
    split
    · rename_i h
      have : named s a = false := by
        cases h' : named s a with
        | false => rfl
        | true => exact absurd (named_inj h' h) hs
      simp [marked, this]
    · simp only [marked, List.any_cons] at ih ⊢
      rw [ih]

theorem anyAttr_dropFirst {s : String} {p : Attr → Bool} {as : List Attr}
    (h : anyAttr as s = false) : anyAttr (dropFirst p as) s = false := by
  simp only [anyAttr, List.any_eq_false] at h ⊢
  exact fun a ha => h a (mem_dropFirst ha)

/-! ## Only some attributes matter -/

theorem thr_attrs {H : Hit} {k : Kind} {as as1 : List Attr}
    (h : marked "never" as1 = marked "never" as) : thr H k as1 = thr H k as := by
  unfold thr; rw [h]

theorem kidH_attrs {H : Hit} {r : Role} {k : Kind} {as as1 : List Attr}
    (h : marked "never" as1 = marked "never" as) (i : Nat) : kidH H r k as1 i = kidH H r k as i := by
  unfold kidH
  split <;> simp only [thr_attrs h]

theorem kidsP_attrs {J : Job} {H : Hit} {r : Role} {k : Kind} {as as1 : List Attr}
    (h : marked "never" as1 = marked "never" as) (ks ks' : List Node) :
    kidsP J H r k as1 ks ks' = kidsP J H r k as ks ks' := by
  unfold kidsP
  split <;> simp only [thr_attrs h]

theorem diverges_attrs {m : String} {k : Kind} {as as1 : List Attr} {ks : List Node}
    (h : marked "never" as1 = marked "never" as) :
    diverges m (.mk k as1 ks) = diverges m (.mk k as ks) := by
  rw [diverges.eq_def, diverges.eq_def]
  dsimp only
  rw [h]

theorem isExpr_isExpression {o : Node} (h : isExprNode o = true) (hk : hidesCode o.kind = false) :
    isExpression o.kind = true := by
  cases o with
  | mk k as ks => cases k <;> simp_all [isExprNode, hidesCode, isExpression, Node.kind]

theorem hasAttrs_blur {en : Ident} {k k' : Kind} (h : blurK en k' = blurK en k) :
    k'.hasAttrs = k.hasAttrs := by
  by_cases hp : ∃ p, k = .ePath false p
  · obtain ⟨p, rfl⟩ := hp
    obtain ⟨p', rfl, _⟩ := blurK_path h
    rfl
  · rw [blurK_rigid h fun p hp' => hp ⟨p, hp'⟩]

theorem isExpression_hasAttrs {k : Kind} (h : isExpression k = true) : k.hasAttrs = true := by
  cases k <;> simp_all [isExpression, Kind.hasAttrs]

theorem kidRoleP_eq {r : Role} {k : Kind} {as : List Attr} {n i : Nat} (h : isExpression k = true) :
    kidRoleP r k n i = kidRole r k as n i := by
  cases k <;> simp_all [isExpression, kidRoleP, kidRole]

theorem clean_error {cx : Cx} {e : Err} (h : Clean (cx.error e)) : False := by
  have := h.1
  simp [Cx.error] at this

/-- The state of a node after `#[nested]` has been dealt with. -/
theorem nestedStep_pend {J : Job} {cx : Cx} {sc : Scope} {seen : List String} {ts : List Target}
    {r : Role} {k : Kind} {as : List Attr} {ks : List Node} {t : Node} (hF : Does J cx)
    (hsc : sc.foreign = false) (he : isExprNode (.mk k as ks) = true) (hk : hidesCode k = false)
    (hfine : Fine J seen r (.mk k as ks)) (h : Alike J.en t (pend J (hits ts) r (.mk k as ks)))
    (hc : Clean (nestedStep sc cx t).1) :
    Alike J.en (nestedStep sc cx t).2 (.mk k (dropFirst (named "nested") as)
      (kidsP J (hits ts) (role J r k as ks) k as ks
        (pendL J (fun i => hits (kidTargets ts (role J r k as ks) k as i))
          (fun i => kidRole (role J r k as ks) k as ks.length i) ks))) := by
  have hx : isExpression k = true := isExpr_isExpression he hk
  have hH : ∀ r i, hits (kidTargets ts r k as i) = kidH (hits ts) r k as i :=
    fun r i => (kidH_hits ts r k as i).symm
  rw [pend, hk] at h
  simp only [Bool.false_eq_true, if_false] at h
  obtain ⟨k', tks, rfl, hb, hl⟩ := h.inv
  unfold nestedStep at hc ⊢
  rw [hsc] at hc ⊢
  simp only [Bool.false_eq_true, if_false] at hc ⊢
  have hat : k'.hasAttrs = true := (hasAttrs_blur hb).trans (isExpression_hasAttrs hx)
  unfold Node.findRemoveAttr at hc ⊢
  dsimp only at hc ⊢
  rw [hat] at hc ⊢
  simp only [if_true] at hc ⊢
  cases hfr : findRemove (·.is NESTED) as with
  | none =>
    have hm : marked "nested" as = false := drop_none_marked hfr
    have hd : dropFirst (named "nested") as = as := (drop_none hfr).1
    rw [hd]
    have hr : roleP J r k as ks = role J r k as ks := by
      unfold roleP
      split
      · rename_i hr
        subst hr
        simp [role, hm]
      · rfl
    rw [hr] at hl
    simp only [hH, ← kidRoleP_eq (as := as) hx]
    exact .mk hb hl
  | some x =>
    obtain ⟨a, as'⟩ := x
    obtain ⟨rfl, ha, ham⟩ := drop_some hfr
    rw [hfr] at hc
    dsimp only at hc ⊢
    unfold visitNested at hc ⊢
    rw [hsc] at hc ⊢
    simp only [Bool.not_false, Cx.assert, if_true] at hc ⊢
    by_cases hp : (a.form == .path) = true
    · rw [if_pos hp]
      have hmk : marked "nested" as = true := by
        simp only [marked, List.any_eq_true]
        exact ⟨a, ham, by rw [hp]; simpa [NESTED] using ha⟩
      have hnv := marked_dropFirst (s := "never") (s' := "nested") (by decide) as
      have hrp : r = .plain := by
        have := hfine.once
        rw [Spec.once, hx, hmk] at this
        simp only [Bool.not_true, Bool.or_false, Bool.and_eq_true, beq_iff_eq] at this
        exact this.1
      subst hrp
      have h1 : Alike J.en (.mk k' (dropFirst (named "nested") as) tks)
          (pend J (hits ts) .plain (.mk k (dropFirst (named "nested") as) ks)) := by
        rw [pend_plain, hk]
        simp only [Bool.false_eq_true, if_false, kidsP_attrs hnv, kidH_attrs hnv]
        rw [roleP_plain] at hl
        simp only [kidRoleP_plain] at hl
        exact .mk hb hl
      have h2 := childExpr_pend (.mk k (dropFirst (named "nested") as) ks) seen (hits ts) _ cx hF
        he (by
          have := hfine.free
          rw [hasAttr_mk, Bool.or_eq_false_iff] at this ⊢
          exact ⟨anyAttr_dropFirst this.1, this.2⟩)
        (by have := hfine.gram; rw [grammatical] at this ⊢; exact this)
        (by have := hfine.labels; rw [labelsOk.eq_def] at this ⊢; exact this) h1
      refine h2.trans ?_
      have hrole : roleP J .result k (dropFirst (named "nested") as) ks = role J .plain k as ks := by
        simp only [roleP, reduceCtorEq, if_false]
        unfold role
        split
        · rfl
        · simp only [hx, hmk, diverges_attrs hnv, Bool.and_true, Bool.true_and]
          cases diverges J.marker (.mk k as ks) <;> rfl
      rw [pend, hrole, hk]
      simp only [Bool.false_eq_true, if_false, kidsP_attrs hnv, kidH_attrs hnv, hH,
        kidRoleP_eq (as := as) hx]
      exact rfl
    · rw [if_neg hp] at hc
      exact (clean_error hc).elim

/-! ## Before the kids -/

/-- The context and scope belong to the task and place. -/
structure Ready (J : Job) (w : Where) (sc : Scope) (cx : Cx) : Prop where
  does : Does J cx
  own : sc.foreign = false
  closure : sc.closure = w.closure
  tryBlock : sc.tryBlock = w.tryBlock

theorem Ready.same {J : Job} {w : Where} {sc : Scope} {a b : Cx} (h : Ready J w sc a)
    (hs : Same a b) : Ready J w sc b := ⟨h.does.same hs, h.own, h.closure, h.tryBlock⟩

theorem Ready.enter {J : Job} {w : Where} {sc : Scope} {cx : Cx} (h : Ready J w sc cx)
    {k k' : Kind} (hb : blurK J.en k' = blurK J.en k) : Ready J (w.enter k) (sc.check k') cx := by
  have hk : sc.check k' = sc.check k := by
    by_cases hp : ∃ p, k = .ePath false p
    · obtain ⟨p, rfl⟩ := hp
      obtain ⟨p', rfl, _⟩ := blurK_path hb
      rfl
    · rw [blurK_rigid hb fun p hp' => hp ⟨p, hp'⟩]
  rw [hk]
  obtain ⟨h1, h2, h3, h4⟩ := h
  cases k <;> exact ⟨h1, h2, by simp [Scope.check, Where.enter, h3],
    by simp [Scope.check, Where.enter, h4]⟩

theorem Does.tries_returns {J : Job} {cx : Cx} (h : Does J cx) (ht : J.tries = true) :
    J.returns = false := by
  have := h.tries.mpr ht
  cases hr : J.returns with
  | false => rfl
  | true =>
    obtain ⟨n, hn⟩ := h.returns.mpr hr
    rw [this] at hn
    cases hn

theorem Does.tries_branches {J : Job} {cx : Cx} (h : Does J cx) (ht : J.tries = true) :
    J.branches = false := by
  have := h.tries.mpr ht
  rw [← h.branches]
  simp [Cx.visitLast, this]

theorem anyAttr_mk {k : Kind} {as : List Attr} {ks : List Node} {s : String}
    (hk : ∀ b, k ≠ .sExpr b) (h : anyAttr as s = false) : (Node.mk k as ks).anyAttr s = false := by
  unfold Node.anyAttr
  rw [Node.attrs.eq_def]
  split
  · rename_i heq
    simp only [Node.mk.injEq] at heq
    exact absurd heq.1 (hk _)
  · rename_i heq
    simp only [Node.mk.injEq] at heq
    obtain ⟨_, rfl, _⟩ := heq
    split
    · exact h
    · rfl

theorem visitMode_other {sc : Scope} {cx : Cx} {k : Kind} {as : List Attr} {ks : List Node}
    (h1 : k ≠ .eReturn) (h2 : k ≠ .eTry) :
    visitMode sc cx (.mk k as ks) = (cx, .mk k as ks) := by
  unfold visitMode
  split
  · unfold visitReturn
    split
    · split
      · rename_i heq; simp only [Node.mk.injEq] at heq; exact absurd heq.1 h1
      · rfl
    · rfl
  · unfold visitTry
    split
    · split
      · rename_i heq; simp only [Node.mk.injEq] at heq; exact absurd heq.1 h2
      · rfl
    · rfl
  · rfl

theorem replaceBoxed_pend {J : Job} {cx : Cx} (hF : Does J cx) {H : Hit} {ks tks : List Node}
    (h : AlikeL J.en tks (pendL J (fun _ => H) (fun _ => .plain) ks)) :
    AlikeL J.en (cx.replaceBoxed tks).2 (pendL J (fun _ => H) (fun _ => .plain)
      (if isCallOf J.marker ks then ks else wrapHead J ks)) := by
  cases ks with
  | nil =>
    rw [alikeL_nil h]
    simp only [isCallOf, Bool.false_eq_true, if_false, pendL_wrapHead]
    exact .cons (next_alike hF [] (.refl _)) rfl
  | cons e l =>
    rw [pendL] at h
    obtain ⟨te, m, rfl, h1, h2⟩ := alikeL_inv h
    have hm := isMarkerExpr_eq hF.root (J := J) (o := e) (t := te) ⟨H, h1⟩ l
    rw [hF.marker] at hm
    unfold Cx.replaceBoxed
    dsimp only
    rw [hm]
    split
    · exact .cons h1 h2
    · rw [pendL_wrapHead]
      exact .cons (next_alike hF [] h1) h2

theorem nestedStep_attrs {sc : Scope} {cx : Cx} {k : Kind} {as : List Attr} {ks : List Node}
    (hs : sc.foreign = false) (hk : k.hasAttrs = true)
    (hid : ∀ as, (childExpr cx (.mk k as ks)).2 = .mk k as ks) :
    (nestedStep sc cx (.mk k as ks)).2 = .mk k (dropFirst (named "nested") as) ks := by
  unfold nestedStep
  rw [hs]
  simp only [Bool.false_eq_true, if_false]
  unfold Node.findRemoveAttr
  dsimp only
  rw [hk]
  simp only [if_true]
  cases hfr : findRemove (·.is NESTED) as with
  | none =>
    have hd : dropFirst (named "nested") as = as := (drop_none hfr).1
    simp [hd]
  | some x =>
    obtain ⟨a, as'⟩ := x
    obtain ⟨rfl, ha, ham⟩ := drop_some hfr
    dsimp only
    unfold visitNested
    rw [hs]
    simp only [Bool.not_false, Cx.assert, if_true]
    split
    · rw [hid]; rfl
    · rfl

/-- An expression just before its kids are visited. -/
theorem pre_expr {J : Job} {cx : Cx} {sc : Scope} {w : Where} {seen : List String}
    {ts : List Target} {r : Role} {k : Kind} {as : List Attr} {ks : List Node} {t : Node}
    (hR : Ready J w sc cx) (he : isExprNode (.mk k as ks) = true) (hk : hidesCode k = false)
    (hfine : Fine J seen r (.mk k as ks)) (h : Alike J.en t (pend J (hits ts) r (.mk k as ks)))
    (hc : Clean (pre .visitor sc cx t).1) :
    Alike J.en (pre .visitor sc cx t).2 (.mk (vkind J w k as ks) (dropFirst (named "nested") as)
      (pendL J (fun i => hits (kidTargets ts (role J r k as ks) k as i))
        (fun i => kidRole (role J r k as ks) k as ks.length i)
        (vkids J w ts (role J r k as ks) k as ks))) := by
  have hname : anyAttr as NAME = false := by
    have := hfine.free
    rw [hasAttr_mk, Bool.or_eq_false_iff] at this
    exact this.1
  have hseen : AutoEnums.seen cx t = cx := by
    rw [pend] at h
    obtain ⟨k', tks, rfl, hb, _⟩ := h.inv
    unfold AutoEnums.seen
    have : (Node.mk k' as tks).anyAttr NAME = false := anyAttr_mk (by
      rintro b rfl
      have := blurK_rigid hb.symm (by simp)
      subst this
      cases he) hname
    rw [this]
    rfl
  unfold pre at hc ⊢
  dsimp only at hc ⊢
  rw [hseen] at hc ⊢
  -- the visit changes nothing, or is one of the two cases below
  have hid : (k = .eReturn → ourReturn J w as ks = false) → (k = .eTry → ourTry J w as ks = false) →
      visitMode sc cx t = (cx, t) → Alike J.en (nestedStep sc (visitMode sc cx t).1
        (visitMode sc cx t).2).2 (.mk (vkind J w k as ks) (dropFirst (named "nested") as)
      (pendL J (fun i => hits (kidTargets ts (role J r k as ks) k as i))
        (fun i => kidRole (role J r k as ks) k as ks.length i)
        (vkids J w ts (role J r k as ks) k as ks))) := by
    intro h1 h2 hv
    rw [hv] at hc ⊢
    have := nestedStep_pend hR.does hR.own he hk hfine h hc
    rw [virt_pend rfl h1 h2] at this
    have hvk : vkind J w k as ks = k := by
      unfold vkind
      split
      · rename_i hh
        rw [h2 hh.1] at hh
        exact absurd hh.2 (by simp)
      · rfl
    rw [hvk]
    exact this
  by_cases hret : k = .eReturn
  · subst hret
    rw [pend] at h
    obtain ⟨tks, rfl, hl⟩ := h.rigid (by simp)
    have hpl : AlikeL J.en tks (pendL J (fun _ => hits (through ts .eReturn as)) (fun _ => .plain) ks) := by
      simpa [kidsP, hidesCode, kidH, kidRoleP, kidRole, hits_through] using hl
    have hro : (Node.mk .eReturn as tks).anyEmptyAttr NEVER = marked "never" as := by
      rw [marked_eq]; rfl
    cases hr : J.returns with
    | false =>
      refine hid (fun _ => by simp [ourReturn, hr]) (by simp) ?_
      unfold visitMode
      split
      · rename_i n hm
        have := hR.does.returns.mp ⟨n, hm⟩
        rw [hr] at this
        cases this
      · unfold visitTry
        split <;> rfl
      · rfl
    | true =>
      obtain ⟨n, hm⟩ := hR.does.returns.mpr hr
      have hv : visitMode sc cx (.mk .eReturn as tks) = visitReturn sc cx (.mk .eReturn as tks) := by
        unfold visitMode; rw [hm]
      by_cases hcond : (!w.closure && !marked "never" as) = true
      · have hv' : visitReturn sc cx (.mk .eReturn as tks) =
            ((cx.replaceBoxed tks).1, .mk .eReturn as (cx.replaceBoxed tks).2) := by
          unfold visitReturn
          rw [hro, hR.closure, if_pos hcond]
        rw [hv, hv'] at hc ⊢
        dsimp only
        rw [nestedStep_attrs hR.own rfl (by
          intro as
          unfold childExpr
          have : isUnreachable (cx.replaceBoxed tks).1 (.mk .eReturn as (cx.replaceBoxed tks).2) = true := by
            unfold isUnreachable; simp
          rw [this]; simp)]
        have := replaceBoxed_pend hR.does hpl
        simp only [Bool.and_eq_true, Bool.not_eq_true'] at hcond
        simp only [vkind, reduceCtorEq, false_and, if_false, kidTargets, kidRole, vkids, ourReturn,
          hr, hcond.1, hcond.2, Bool.not_false, Bool.and_self, Bool.true_and]
        refine .node _ _ ?_
        cases hcall : isCallOf J.marker ks
        · rw [hcall] at this; exact this
        · rw [hcall] at this; exact this
      · refine hid (fun _ => ?_) (by simp) ?_
        · simp only [ourReturn, hr, Bool.true_and]
          simp only [Bool.not_eq_true] at hcond
          rw [hcond]; rfl
        · rw [hv]
          unfold visitReturn
          rw [hro, hR.closure, if_neg hcond]
  · by_cases htry : k = .eTry
    · subst htry
      obtain ⟨e, rfl⟩ : ∃ e, ks = [e] := by
        have hg := (grammatical_mk hfine.gram hk).1
        unfold kidsOk at hg
        split at hg <;> simp_all
      rw [pend] at h
      obtain ⟨tks, rfl, hl⟩ := h.rigid (by simp)
      have hpl : AlikeL J.en tks [pend J (hits (through ts .eTry as)) .plain e] := by
        simpa [kidsP, hidesCode, kidH, kidRoleP, kidRole, hits_through, pendL] using hl
      obtain ⟨te, m, rfl, h1, h2⟩ := alikeL_inv hpl
      rw [alikeL_nil h2] at hl hpl hc hid ⊢
      have hro : (Node.mk .eTry as [te]).anyEmptyAttr NEVER = marked "never" as := by
        rw [marked_eq]; rfl
      have hm := isMarkerExpr_eq hR.does.root (J := J) (o := e) (t := te) ⟨_, h1⟩ []
      rw [hR.does.marker] at hm
      cases hr : J.tries with
      | false =>
        refine hid (by simp) (fun _ => by simp [ourTry, hr]) ?_
        unfold visitMode
        split
        · unfold visitReturn
          split <;> rfl
        · rename_i hm
          have := hR.does.tries.mp hm
          rw [hr] at this
          cases this
        · rfl
      | true =>
        have hmode := hR.does.tries.mpr hr
        have hv : visitMode sc cx (.mk .eTry as [te]) = visitTry sc cx (.mk .eTry as [te]) := by
          unfold visitMode; rw [hmode]
        by_cases hcond : (!w.tryBlock && !w.closure && !marked "never" as) = true
        · have hv' : visitTry sc cx (.mk .eTry as [te]) = if isCallOf J.marker [e] then
              (cx, .mk .eTry as [te]) else ((cx.nextExpr (pathE (.ofIdents ["err"]))).1,
                .mk .eMatch as (te :: tryArms (cx.nextExpr (pathE (.ofIdents ["err"]))).2)) := by
            unfold visitTry
            rw [hro, hR.closure, hR.tryBlock, if_pos hcond]
            dsimp only
            rw [hm]
          cases hcall : isCallOf J.marker [e] with
          | true =>
            refine hid (by simp) (fun _ => by simp [ourTry, hcall]) ?_
            rw [hv, hv', hcall]
            rfl
          | false =>
            have hour : ourTry J w as [e] = true := by
              simp only [Bool.and_eq_true, Bool.not_eq_true'] at hcond
              simp [ourTry, hcall, hr, hcond]
            rw [hcall] at hv'
            simp only [Bool.false_eq_true, if_false] at hv'
            rw [hv, hv'] at hc ⊢
            dsimp only
            have hF' := hR.does.same (Same.next cx [] (pathE (.ofIdents ["err"])))
            rw [nestedStep_attrs hR.own rfl (by
              intro as
              unfold childExpr
              have : (cx.nextExpr (pathE (.ofIdents ["err"]))).1.visitLast = false :=
                hF'.branches.trans (hR.does.tries_branches hr)
              rw [this]; simp)]
            simp only [vkind, true_and, hour, if_true, vkids, kidTargets, kidRole,
              pendL_plain_append, pendL_tryTail]
            refine .node _ _ (.cons h1 ?_)
            refine .cons (.refl _) (.cons (.node _ _ (.cons (.node _ _ (.cons (.node _ _ (.cons
              (.node _ _ (.cons (.node _ _ (.cons (.refl _) (.cons ?_ rfl))) rfl)) rfl)) rfl))
              rfl)) rfl)
            exact next_alike hR.does [] (.refl _)
        · refine hid (by simp) (fun _ => ?_) ?_
          · simp only [Bool.and_eq_true, Bool.not_eq_true', not_and] at hcond
            cases hc1 : w.tryBlock <;> cases hc2 : w.closure <;> simp_all [ourTry]
          · rw [hv]
            unfold visitTry
            rw [hro, hR.closure, hR.tryBlock, if_neg hcond]
    · refine hid (fun h => absurd h hret) (fun h => absurd h htry) ?_
      rw [pend] at h
      obtain ⟨k', tks, rfl, hb, _⟩ := h.inv
      refine visitMode_other ?_ ?_
      · rintro rfl
        exact hret (blurK_rigid hb.symm (by simp))
      · rintro rfl
        exact htry (blurK_rigid hb.symm (by simp))

/-! ## Arms and `let`s before their kids -/

theorem pendL_last {J : Job} {Hs : Nat → Hit} : ∀ {l tl : List Node},
    AlikeL J.en tl (pendL J Hs (fun _ => .plain) l) → ∀ b b', l.getLast? = some b →
    Alike J.en b' (pend J (Hs (l.length - 1)) .result b) →
    AlikeL J.en (tl.dropLast ++ [b']) (pendL J Hs
      (fun i => if i + 1 = l.length then .result else .plain) l) := by
  intro l
  induction l generalizing Hs with
  | nil => intro tl _ b b' hb; simp at hb
  | cons a l ih =>
    intro tl h b b' hb hb'
    rw [pendL] at h
    obtain ⟨ta, m, rfl, h1, h2⟩ := alikeL_inv h
    cases l with
    | nil =>
      simp only [List.getLast?_singleton, Option.some.injEq] at hb
      subst hb
      rw [alikeL_nil h2]
      simpa [pendL] using AlikeL.cons hb' rfl
    | cons c l =>
      obtain ⟨tc, m', rfl, h3, h4⟩ := alikeL_inv (by rw [pendL] at h2; exact h2)
      rw [List.getLast?_cons_cons] at hb
      have := ih h2 b b' hb (by simpa using hb')
      rw [pendL]
      simp only [List.length_cons, Nat.zero_add, Nat.add_right_cancel_iff] at this ⊢
      refine .cons (by simpa using h1) ?_
      simpa using this

theorem two {α : Type} {l : List α} (h : l.length = 2) : ∃ a b, l = [a, b] := by
  match l, h with
  | [a, b], _ => exact ⟨a, b, rfl⟩

/-- Arms and `let`s just before their kids are visited. -/
theorem preSub_pend {J : Job} {cx : Cx} {sc : Scope} {w : Where} {seen : List String}
    {ts : List Target} {r : Role} {k : Kind} {as : List Attr} {ks : List Node} {t : Node}
    (hR : Ready J w sc cx) (hkind : (∃ p, k = .arm p) ∨ ∃ p, k = .sLocal p)
    (hfine : Fine J seen r (.mk k as ks)) (h : Alike J.en t (pend J (hits ts) r (.mk k as ks)))
    (hc : Clean (preSub .visitor sc cx t).1) :
    Alike J.en (preSub .visitor sc cx t).2 (.mk k (dropFirst (named "nested") as)
      (pendL J (fun i => hits (kidTargets ts (role J r k as ks) k as i))
        (fun i => kidRole (role J r k as ks) k as ks.length i)
        (vkids J w ts (role J r k as ks) k as ks))) := by
  have hk : hidesCode k = false := by obtain ⟨p, rfl⟩ | ⟨p, rfl⟩ := hkind <;> rfl
  have hrig : ∀ p, k ≠ .ePath false p := by obtain ⟨p, rfl⟩ | ⟨p, rfl⟩ := hkind <;> simp
  have hx : isExpression k = false := by obtain ⟨p, rfl⟩ | ⟨p, rfl⟩ := hkind <;> rfl
  have hro : roleP J r k as ks = role J r k as ks := by
    unfold roleP
    split
    · rename_i hr
      subst hr
      simp [role, hx]
    · rfl
  have hkr : ∀ r n i, kidRoleP r k n i = .plain := by
    obtain ⟨p, rfl⟩ | ⟨p, rfl⟩ := hkind <;> intros <;> rfl
  have hH : ∀ r i, kidH (hits ts) r k as i = hits (kidTargets ts r k as i) :=
    fun r i => kidH_hits ts r k as i
  rw [pend, hk, hro] at h
  simp only [Bool.false_eq_true, if_false, hkr, hH] at h
  obtain ⟨tks, rfl, hl⟩ := h.rigid hrig
  have hat : k.hasAttrs = true := by obtain ⟨p, rfl⟩ | ⟨p, rfl⟩ := hkind <;> rfl
  have hg := grammatical_mk hfine.gram hk
  have hfree : hasAttrL NAME ks = false := by
    have := hfine.free
    rw [hasAttr_mk, Bool.or_eq_false_iff, ← hidesCode_eq, hk] at this
    simpa using this.2
  have hlab : labelsOkL seen ks = true := by
    have := (hfine.kids hk).labels
    obtain ⟨p, rfl⟩ | ⟨p, rfl⟩ := hkind <;> simpa [kidSeen, labelOf] using this
  unfold preSub at hc ⊢
  dsimp only at hc ⊢
  rw [hR.own] at hc ⊢
  simp only [Bool.false_eq_true, if_false] at hc ⊢
  unfold Node.findRemoveAttr at hc ⊢
  dsimp only at hc ⊢
  rw [hat] at hc ⊢
  simp only [if_true] at hc ⊢
  cases hfr : findRemove (·.is NESTED) as with
  | none =>
    have hd : dropFirst (named "nested") as = as := (drop_none hfr).1
    have hm : marked "nested" as = false := drop_none_marked hfr
    rw [hd]
    have hkr' : ∀ r n i, kidRole r k as n i = .plain := by
      obtain ⟨p, rfl⟩ | ⟨p, rfl⟩ := hkind <;> intros <;> simp [kidRole, hm]
    rw [← virt_pend (w := w) (J := J) (k := k) rfl (by rintro rfl; simp at hkind)
      (by rintro rfl; simp at hkind)]
    simp only [hkr']
    exact .node _ _ hl
  | some x =>
    obtain ⟨a, as'⟩ := x
    obtain ⟨rfl, ha, ham⟩ := drop_some hfr
    rw [hfr] at hc
    dsimp only at hc ⊢
    have child : ∀ b tb H, b ∈ ks → Alike J.en tb (pend J H .plain b) →
        Clean (visitNested sc cx tb a).1 →
        marked "nested" as = true ∧ Alike J.en (visitNested sc cx tb a).2 (pend J H .result b) := by
      intro b tb H hb hbt hcl
      unfold visitNested at hcl ⊢
      rw [hR.own] at hcl ⊢
      simp only [Bool.not_false, Cx.assert, if_true] at hcl ⊢
      by_cases hp : (a.form == .path) = true
      · rw [if_pos hp]
        refine ⟨?_, childExpr_pend b seen H tb cx hR.does ?_ (hasAttrL_mem hfree b hb)
          (grammaticalL_mem hg.2 hb) (labelsOkL_mem hlab hb) hbt⟩
        · simp only [marked, List.any_eq_true]
          exact ⟨a, ham, by rw [hp]; simpa [NESTED] using ha⟩
        · have : ks.all isExprNode = true := by
            have := hg.1
            obtain ⟨p, rfl⟩ | ⟨p, rfl⟩ := hkind
            · simp only [kidsOk, Bool.and_eq_true] at this; exact this.2
            · simpa [kidsOk] using this
          exact List.all_eq_true.mp this b hb
      · rw [if_neg hp] at hcl
        exact (clean_error hcl).elim
    obtain ⟨p, rfl⟩ | ⟨p, rfl⟩ := hkind
    · -- an arm
      have hlen : (∃ b, ks = [b]) ∨ ∃ g b, ks = [g, b] := by
        have := hg.1
        simp only [kidsOk, Bool.and_eq_true, Bool.or_eq_true, beq_iff_eq] at this
        rcases this.1 with h1 | h1
        · exact .inl (List.length_eq_one_iff.mp h1)
        · exact .inr (two h1)
      have key : role J r (.arm p) as ks ≠ .branch →
          AlikeL J.en tks (pendL J (fun _ => hits (through ts (.arm p) as)) (fun _ => .plain) ks) := by
        intro hb
        simpa [kidsP, hb, kidTargets] using hl
      have hl' : ∀ X, AlikeL J.en tks X → tks.length = X.length := fun X h => h.length
      have hlent : tks.length = ks.length := by
        rw [hl.length]
        simp only [kidsP]
        split
        · have : ∀ l : List Node, (wrapLast J l).length = l.length := by
            intro l
            induction l with
            | nil => rfl
            | cons a l ih => cases l with
              | nil => rfl
              | cons b l => simp [wrapLast, ih]
          rw [this, pendL_length]
        · rw [pendL_length]
      rcases hlen with ⟨b, rfl⟩ | ⟨g, b, rfl⟩
      · obtain ⟨tb, rfl⟩ := List.length_eq_one_iff.mp hlent
        dsimp only at hc ⊢
        -- the form of the attribute is needed first
        have hpath : marked "nested" as = true := by
          unfold visitNested at hc
          rw [hR.own] at hc
          simp only [Bool.not_false, Cx.assert, if_true] at hc
          by_cases hp : (a.form == .path) = true
          · simp only [marked, List.any_eq_true]
            exact ⟨a, ham, by rw [hp]; simpa [NESTED] using ha⟩
          · rw [if_neg hp] at hc
            exact (clean_error hc).elim
        have hnb : role J r (.arm p) as [b] ≠ .branch := by
          intro hb
          rw [role_arm_branch hb] at hpath
          cases hpath
        have hk2 := key hnb
        rw [pendL, pendL] at hk2
        obtain ⟨_, _, heq, h1, _⟩ := alikeL_inv hk2
        simp only [List.cons.injEq] at heq
        obtain ⟨rfl, _⟩ := heq
        have := (child b tb _ (by simp) h1 hc).2
        simp only [vkids, hnb, if_false, kidTargets, kidRole, hpath, pendL]
        exact .node _ _ (.cons (by simpa using this) rfl)
      · obtain ⟨tg, tb, rfl⟩ := two hlent
        dsimp only at hc ⊢
        have hpath : marked "nested" as = true := by
          unfold visitNested at hc
          rw [hR.own] at hc
          simp only [Bool.not_false, Cx.assert, if_true] at hc
          by_cases hp : (a.form == .path) = true
          · simp only [marked, List.any_eq_true]
            exact ⟨a, ham, by rw [hp]; simpa [NESTED] using ha⟩
          · rw [if_neg hp] at hc
            exact (clean_error hc).elim
        have hnb : role J r (.arm p) as [g, b] ≠ .branch := by
          intro hb
          rw [role_arm_branch hb] at hpath
          cases hpath
        have hk2 := key hnb
        rw [pendL, pendL, pendL] at hk2
        obtain ⟨_, _, heq, h0, hk3⟩ := alikeL_inv hk2
        simp only [List.cons.injEq] at heq
        obtain ⟨rfl, rfl⟩ := heq
        obtain ⟨_, _, heq, h1, _⟩ := alikeL_inv hk3
        simp only [List.cons.injEq] at heq
        obtain ⟨rfl, _⟩ := heq
        have := (child b tb _ (by simp) h1 hc).2
        simp only [vkids, hnb, if_false, kidTargets, kidRole, hpath, pendL]
        exact .node _ _ (.cons (by simpa using h0) (.cons (by simpa using this) rfl))
    · -- a `let`
      have hl2 : AlikeL J.en tks (pendL J (fun _ => hits (through ts (.sLocal p) as))
          (fun _ => .plain) ks) := by
        simpa [kidsP, kidTargets] using hl
      cases ks with
      | nil =>
        rw [alikeL_nil hl2]
        exact .node _ _ rfl
      | cons e els =>
        rw [pendL] at hl2
        obtain ⟨te, tels, rfl, h1, h2⟩ := alikeL_inv hl2
        dsimp only at hc ⊢
        obtain ⟨hpath, this⟩ := child e te _ (by simp) h1 hc
        simp only [vkids, kidTargets, kidRole, hpath, pendL]
        refine .node _ _ (.cons (by simpa using this) (by simpa using h2))

/-! ## After the kids -/

theorem findRemoveAttrs_pend {sc : Scope} {cx : Cx} {k : Kind} {as : List Attr} {ks : List Node}
    (hs : sc.foreign = false) (hc : Clean (findRemoveAttrs sc cx (.mk k as ks)).1) :
    (findRemoveAttrs sc cx (.mk k as ks)).2 =
      .mk k (if k.hasAttrs then dropFirst (named "never") as else as) ks := by
  unfold findRemoveAttrs at hc ⊢
  rw [hs] at hc ⊢
  simp only [Bool.false_eq_true, if_false] at hc ⊢
  cases hh : k.hasAttrs with
  | false =>
    have : Node.findRemoveAttr (.mk k as ks) NEVER = none := by simp [Node.findRemoveAttr, hh]
    rw [this] at hc ⊢
    dsimp only at hc ⊢
    cases hq : (Node.mk k as ks).findRemoveAttr "rec" with
    | none => simp
    | some x => rw [hq] at hc; exact (clean_error hc).elim
  | true =>
    cases hfr : findRemove (·.is NEVER) as with
    | none =>
      have : Node.findRemoveAttr (.mk k as ks) NEVER = none := by
        simp [Node.findRemoveAttr, hfr]
      rw [this] at hc ⊢
      have hd : dropFirst (named "never") as = as := (drop_none hfr).1
      rw [hd]
      dsimp only at hc ⊢
      cases hq : (Node.mk k as ks).findRemoveAttr "rec" with
      | none => simp
      | some x => rw [hq] at hc; exact (clean_error hc).elim
    | some x =>
      obtain ⟨a, as'⟩ := x
      have : Node.findRemoveAttr (.mk k as ks) NEVER = some (a, .mk k as' ks) := by
        simp [Node.findRemoveAttr, hh, hfr]
      rw [this] at hc ⊢
      obtain ⟨rfl, _, _⟩ := drop_some hfr
      dsimp only at hc ⊢
      cases hq : (Node.mk k (dropFirst (named NEVER) as) ks).findRemoveAttr "rec" with
      | none => simp [NEVER]
      | some x => rw [hq] at hc; exact (clean_error hc).elim

end AutoEnums
