import Verif.Lemmas.Reports

/-! # Lemmas: which errors are reported at one node -/

namespace AutoEnums

open Spec

/-! ## Attributes -/

theorem find_drop (s : String) (as : List Attr) : findRemove (·.is s) as =
    (as.find? (named s)).map fun a => (a, dropFirst (named s) as) := by
  induction as with
  | nil => rfl
  | cons b as ih =>
    unfold findRemove
    rw [List.find?_cons, dropFirst, named_iff]
    by_cases hb : b.is s = true
    · simp [hb]
    · have hb : b.is s = false := by simpa using hb
      simp only [hb, Bool.false_eq_true, if_false]
      rw [ih]
      cases as.find? (named s) <;> rfl

theorem find_dropFirst {s s' : String} (hs : s ≠ s') (as : List Attr) :
    (dropFirst (named s') as).find? (named s) = as.find? (named s) := by
  induction as with
  | nil => rfl
  | cons a as ih =>
    rw [dropFirst]
    split
    · rename_i h
      have : named s a = false := by
        cases h' : named s a with
        | false => rfl
        | true => exact absurd (named_inj h' h) hs
      simp [this]
    · rw [List.find?_cons, List.find?_cons, ih]

theorem any_dropFirst {s s' : String} (hs : s ≠ s') (as : List Attr) :
    (dropFirst (named s') as).any (named s) = as.any (named s) := by
  rw [← List.isSome_find?, ← List.isSome_find?, find_dropFirst hs]

theorem dropFirst_absent {s : String} {as : List Attr} (h : as.find? (named s) = none) :
    dropFirst (named s) as = as := by
  induction as with
  | nil => rfl
  | cons a as ih =>
    rw [List.find?_cons] at h
    rw [dropFirst]
    split at h
    · cases h
    · rename_i ha
      rw [ih h]; simp [ha]

theorem helperReports_drop (k : Kind) (as : List Attr) :
    helperReports k (dropFirst (named "nested") as) = helperReports k as := by
  unfold helperReports badForm
  rw [find_dropFirst (by decide), any_dropFirst (by decide)]

/-! ## After the kids -/

theorem findRemoveAttrs_reports {sc : Scope} {cx : Cx} {k : Kind} {as : List Attr} {ks : List Node}
    (hs : sc.foreign = false) :
    (findRemoveAttrs sc cx (.mk k as ks)).1.errs = cx.errs ++ helperReports k as := by
  unfold findRemoveAttrs helperReports Node.findRemoveAttr
  rw [hs]
  simp only [Bool.false_eq_true, if_false]
  cases hh : k.hasAttrs with
  | false => simp [hh]
  | true =>
    simp only [if_true, find_drop]
    cases hn : as.find? (named NEVER) with
    | none =>
      have hn' : badForm "never" as = false := by
        unfold badForm
        rw [show as.find? (named "never") = none from hn]
      rw [hn']
      simp only [Option.map_none, hh, if_true]
      cases hr : as.find? (named "rec") with
      | none =>
        have : as.any (named "rec") = false := by rw [← List.isSome_find?, hr]; rfl
        simp [this]
      | some a =>
        have : as.any (named "rec") = true := by rw [← List.isSome_find?, hr]; rfl
        simp [this, Cx.error]
    | some a =>
      have hn' : badForm "never" as = (a.form != .path) := by
        unfold badForm
        rw [show as.find? (named "never") = some a from hn]
      rw [hn']
      simp only [Option.map_some, hh, if_true, find_dropFirst (s := "rec") (s' := NEVER) (by decide)]
      have herr : (if (a.form == .path) = true then cx else cx.error .neverNotPath).errs =
          cx.errs ++ if (a.form != .path) = true then [.neverNotPath] else [] := by
        by_cases h : (a.form == .path) = true
        · have h2 : (a.form != .path) = false := by simp [bne, h]
          rw [if_pos h, h2]; simp
        · have h2 : (a.form != .path) = true := by simp [bne, h]
          rw [if_neg h, h2]; simp [Cx.error]
      cases hr : as.find? (named "rec") with
      | none =>
        have : as.any (named "rec") = false := by rw [← List.isSome_find?, hr]; rfl
        simp only [Option.map_none, this, Bool.false_eq_true, if_false, List.append_nil]
        exact herr
      | some a' =>
        have : as.any (named "rec") = true := by rw [← List.isSome_find?, hr]; rfl
        simp only [Option.map_some, this, if_true]
        rw [← List.append_assoc, ← herr]
        rfl

theorem lateReports_plain {J : Job} {c : Bool} {k : Kind} {as : List Attr} {ks : List Node}
    (hk : ∀ p x, k ≠ .eMacro p x) : lateReports J c k as ks = helperReports k as := by
  unfold lateReports
  split
  · exact absurd rfl (hk _ _)
  · rfl

theorem post_reports {sc : Scope} {cx : Cx} {k : Kind} {as : List Attr} {ks : List Node}
    (hs : sc.foreign = false) (hk : ∀ p x, k ≠ .eMacro p x) :
    (post .visitor sc cx (.mk k as ks)).1.errs = cx.errs ++ helperReports k as := by
  have hv : visitMarker sc cx (.mk k as ks) =
      (cx.assert (!sc.foreign || cx.marker != DEFAULT_MARKER) .markerForeign, .mk k as ks) := by
    unfold visitMarker
    dsimp only
    split
    · rename_i heq
      simp only [Node.mk.injEq] at heq
      exact absurd heq.1 (hk _ _)
    · rfl
  unfold post
  dsimp only
  rw [hs]
  simp only [Bool.not_false, Bool.true_or, if_true, hv]
  rw [findRemoveAttrs_reports hs, hs]
  rfl

theorem isMarkerExact_eq {J : Job} {cx : Cx} (hF : Does J cx) (p : Path) :
    cx.isMarkerExact p = (p == ⟨false, [⟨J.marker, none⟩]⟩) := by
  have := named_iff J.marker ⟨p, .path⟩
  simp only [named, Attr.is] at this
  unfold Cx.isMarkerExact
  rw [hF.marker, ← this]

theorem post_macro_reports {J : Job} {sc : Scope} {cx : Cx} {p : Path} {x : String} {as : List Attr}
    {ks oks : List Node} (hF : Does J cx) (hs : sc.foreign = false) (hl : AlikeL J.en ks oks) :
    (post .visitor sc cx (.mk (.eMacro p x) as ks)).1.errs =
      cx.errs ++ lateReports J cx.errs.isEmpty (.eMacro p x) as oks := by
  have has : cx.assert (!sc.foreign || cx.marker != DEFAULT_MARKER) .markerForeign = cx := by
    rw [hs]; rfl
  unfold post
  dsimp only
  rw [hs]
  simp only [Bool.not_false, Bool.true_or, if_true]
  unfold lateReports
  dsimp only
  by_cases hp : p = ⟨false, [⟨J.marker, none⟩]⟩
  · have hmt : cx.isMarkerExact p = true := by rw [isMarkerExact_eq hF]; simpa using hp
    rw [if_pos hp]
    have hbad : (∀ e, ks ≠ [e]) → visitMarker sc cx (.mk (.eMacro p x) as ks) =
        (cx.error .markerParse, failedMarker) := by
      intro hks
      unfold visitMarker
      dsimp only
      rw [has, hmt, if_pos rfl]
      split
      · exact absurd rfl (hks _)
      · rfl
    have hfail : (findRemoveAttrs sc (cx.error .markerParse) failedMarker).1.errs =
        cx.errs ++ [.markerParse] := by
      unfold failedMarker
      rw [findRemoveAttrs_reports hs]
      simp [helperReports, badForm, Cx.error]
    cases oks with
    | nil =>
      rw [hbad (by rintro e rfl; cases alikeL_nil hl)]
      exact hfail
    | cons o l =>
      obtain ⟨e, m, rfl, h1, h2⟩ := alikeL_inv hl
      cases l with
      | cons o2 l =>
        obtain ⟨e2, m2, rfl, _, _⟩ := alikeL_inv h2
        rw [hbad (by simp)]
        simpa using hfail
      | nil =>
        cases alikeL_nil h2
        have hv : visitMarker sc cx (.mk (.eMacro p x) as [e]) =
            if cx.hasError then (cx, e) else cx.nextExprAttrs as e := by
          unfold visitMarker
          dsimp only
          rw [has, hmt, if_pos rfl]
        have hem : cx.hasError = !cx.errs.isEmpty := rfl
        rw [hv, hem]
        cases o with
        | mk k' as' oks' =>
        obtain ⟨k2, tks, rfl, hb, _⟩ := h1.inv
        cases hee : cx.errs.isEmpty with
        | true =>
          simp only [Bool.not_true, Bool.false_eq_true, if_false, if_true]
          have h2 : (cx.nextExprAttrs as (.mk k2 as' tks)).2 =
            construct as cx.ident (variantIdent cx.variants.length) (.mk k2 as' tks) := rfl
          rw [h2, construct, findRemoveAttrs_reports hs]
          rfl
        | false =>
          simp only [Bool.not_false, if_true, Bool.false_eq_true, if_false]
          rw [findRemoveAttrs_reports hs]
          unfold helperReports
          rw [hasAttrs_blur hb]
  · have hmt : cx.isMarkerExact p = false := by rw [isMarkerExact_eq hF]; simpa using hp
    rw [if_neg hp]
    have : visitMarker sc cx (.mk (.eMacro p x) as ks) = (cx, .mk (.eMacro p x) as ks) := by
      unfold visitMarker
      dsimp only
      rw [has, hmt]
      rfl
    rw [this, findRemoveAttrs_reports hs]

/-! ## Before the kids -/

/-- The treatment of `#[nested]` on an expression, by what the attribute is. -/
theorem nestedStep_eq {sc : Scope} {cx : Cx} {k : Kind} {as : List Attr} {ks : List Node}
    (hs : sc.foreign = false) (hk : k.hasAttrs = true) :
    nestedStep sc cx (.mk k as ks) = match as.find? (named "nested") with
      | none => (cx, .mk k as ks)
      | some a => if a.form == .path then childExpr cx (.mk k (dropFirst (named "nested") as) ks)
        else (cx.error .nestedNotPath, .mk k (dropFirst (named "nested") as) ks) := by
  unfold nestedStep Node.findRemoveAttr
  rw [hs]
  simp only [Bool.false_eq_true, if_false, hk, if_true, find_drop]
  have : as.find? (named NESTED) = as.find? (named "nested") := rfl
  rw [this]
  cases as.find? (named "nested") with
  | none => rfl
  | some a =>
    simp only [Option.map_some]
    unfold visitNested
    rw [hs]
    rfl

/-- Nothing about the top of an expression other than its attributes changes. -/
theorem nestedStep_top {sc : Scope} {cx : Cx} {k : Kind} {as : List Attr} {ks : List Node}
    (hs : sc.foreign = false) (hk : k.hasAttrs = true) :
    ∃ ks', (nestedStep sc cx (.mk k as ks)).2 = .mk k (dropFirst (named "nested") as) ks' := by
  rw [nestedStep_eq hs hk]
  cases h : as.find? (named "nested") with
  | none => exact ⟨ks, by simp [dropFirst_absent h]⟩
  | some a =>
    dsimp only
    split
    · have := childExpr_top cx (.mk k (dropFirst (named "nested") as) ks)
      cases hr : (childExpr cx (.mk k (dropFirst (named "nested") as) ks)).2 with
      | mk k2 as2 ks2 =>
        rw [hr] at this
        obtain ⟨h1, h2⟩ := this
        simp only [Node.kind, Node.rawAttrs] at h1 h2
        subst h1 h2
        exact ⟨ks2, rfl⟩
    · exact ⟨_, rfl⟩

theorem find_marked {s : String} {as : List Attr} {a : Attr} (h : as.find? (named s) = some a)
    (hp : (a.form == .path) = true) : marked s as = true := by
  simp only [marked, List.any_eq_true]
  exact ⟨a, List.mem_of_find?_eq_some h, by rw [List.find?_some h, hp]; rfl⟩

theorem lacksElse_attrs {J : Job} {k : Kind} {as as1 : List Attr} {ks : List Node}
    (h : marked "never" as1 = marked "never" as) :
    lacksElse J (.mk k as1 ks) = lacksElse J (.mk k as ks) := by
  have : hasElse (.mk .eIf as1 ks) = hasElse (.mk .eIf as ks) := by
    rcases ks with _ | ⟨a, _ | ⟨b, _ | ⟨c, _ | ⟨d, l⟩⟩⟩⟩ <;> simp [hasElse]
  rw [lacksElse.eq_def, lacksElse.eq_def]
  dsimp only
  rw [diverges_attrs h]
  congr 1
  cases k <;> first
    | rfl
    | exact congrArg not this
    | (rcases ks with _ | ⟨a, _ | ⟨b, l⟩⟩ <;> rfl)

theorem nestedReports_expr {J : Job} {k : Kind} {as : List Attr} {ks : List Node}
    (he : isExprNode (.mk k as ks) = true) :
    nestedReports J (.mk k as ks) = match as.find? (named "nested") with
      | some a => if a.form == .path then if lacksElse J (.mk k as ks) then [.missingElse] else []
        else [.nestedNotPath]
      | none => [] := by
  have hsub : subject (.mk k as ks) = some (.mk k as ks) := by
    unfold subject
    split
    · rename_i heq; cases heq; cases he
    · rename_i heq; cases heq; cases he
    · rfl
  unfold nestedReports
  rw [hsub]
  simp only [Node.rawAttrs]
  cases as.find? (named "nested") <;> rfl

/-- What is reported about `#[nested]` on an expression. -/
theorem nestedStep_reports {J : Job} {cx : Cx} {sc : Scope} {k k' : Kind} {as : List Attr}
    {ks tks : List Node} (hsc : sc.foreign = false) (hb : blurK J.en k' = blurK J.en k)
    (he : isExprNode (.mk k as ks) = true) (hat : k.hasAttrs = true)
    (h : marked "nested" as = true →
      (childExpr cx (.mk k' (dropFirst (named "nested") as) tks)).1.errs = cx.errs ++
        if lacksElse J (.mk k as ks) then [.missingElse] else []) :
    (nestedStep sc cx (.mk k' as tks)).1.errs = cx.errs ++ nestedReports J (.mk k as ks) := by
  rw [nestedStep_eq hsc ((hasAttrs_blur hb).trans hat), nestedReports_expr he]
  cases hf : as.find? (named "nested") with
  | none => simp
  | some a =>
    dsimp only
    by_cases hp : (a.form == .path) = true
    · rw [if_pos hp, if_pos hp]
      exact h (find_marked hf hp)
    · rw [if_neg hp, if_neg hp]
      rfl

/-- The same from what is pending. -/
theorem nestedStep_reports_pend {J : Job} {cx : Cx} {sc : Scope} {seen : List String}
    {ts : List Target} {r : Role} {k : Kind} {as : List Attr} {ks : List Node} {t : Node}
    (hF : Does J cx) (hsc : sc.foreign = false) (he : isExprNode (.mk k as ks) = true)
    (hk : hidesCode k = false) (hfine : Fine J seen r (.mk k as ks))
    (h : Alike J.en t (pend J (hits ts) r (.mk k as ks))) :
    (nestedStep sc cx t).1.errs = cx.errs ++ nestedReports J (.mk k as ks) := by
  have hx : isExpression k = true := isExpr_isExpression he hk
  rw [pend, hk] at h
  simp only [Bool.false_eq_true, if_false] at h
  obtain ⟨k', tks, rfl, hb, hl⟩ := h.inv
  refine nestedStep_reports hsc hb he (isExpression_hasAttrs hx) fun hmk => ?_
  have hnv := marked_dropFirst (s := "never") (s' := "nested") (by decide) as
  have hrp : r = .plain := by
    have := hfine.once
    rw [Spec.once, hx, hmk] at this
    simp only [Bool.not_true, Bool.or_false, Bool.and_eq_true, beq_iff_eq] at this
    exact this.1
  subst hrp
  have h1 : Alike J.en (.mk k' (dropFirst (named "nested") as) tks)
      (pend J (hits ts) .plain (.mk k (dropFirst (named "nested") as) ks)) := by
    rw [pend_plain, hk]
    simp only [Bool.false_eq_true, if_false, kidsP_attrs hnv, kidH_attrs hnv]
    rw [roleP_plain] at hl
    simp only [kidRoleP_plain] at hl
    exact .mk hb hl
  rw [childExpr_lacks (.mk k (dropFirst (named "nested") as) ks) (hits ts) _ cx hF he
    (by
      have := hfine.free
      rw [hasAttr_mk, Bool.or_eq_false_iff] at this ⊢
      exact ⟨anyAttr_dropFirst this.1, this.2⟩)
    (by have := hfine.gram; rw [grammatical] at this ⊢; exact this) h1, lacksElse_attrs hnv]

theorem seen_free {J : Job} {cx : Cx} {seen : List String} {H : Hit} {r : Role} {k : Kind}
    {as : List Attr} {ks : List Node} {t : Node} (he : isExprNode (.mk k as ks) = true)
    (hfine : Fine J seen r (.mk k as ks)) (h : Alike J.en t (pend J H r (.mk k as ks))) :
    t.anyAttr NAME = false ∧ AutoEnums.seen cx t = cx := by
  obtain ⟨k', tks, rfl, hb⟩ := pend_kind h
  have : (Node.mk k' as tks).anyAttr NAME = false := anyAttr_mk (by
    rintro b rfl
    have := blurK_rigid hb.symm (by simp)
    subst this
    cases he) hfine.name
  refine ⟨this, ?_⟩
  unfold AutoEnums.seen
  rw [this]
  rfl

/-- What is reported about an expression before its kids are visited. -/
theorem pre_reports {J : Job} {cx : Cx} {sc : Scope} {w : Where} {seen : List String}
    {ts : List Target} {r : Role} {k : Kind} {as : List Attr} {ks : List Node} {t : Node}
    (hR : Ready J w sc cx) (he : isExprNode (.mk k as ks) = true) (hk : hidesCode k = false)
    (hfine : Fine J seen r (.mk k as ks)) (h : Alike J.en t (pend J (hits ts) r (.mk k as ks))) :
    (pre .visitor sc cx t).1.errs = cx.errs ++ nestedReports J (.mk k as ks) ∧
    ∃ k1 pks, (pre .visitor sc cx t).2 = .mk k1 (dropFirst (named "nested") as) pks ∧
      k1.isOpaque = false ∧ k1.hasAttrs = true := by
  have hx : isExpression k = true := isExpr_isExpression he hk
  have hat := isExpression_hasAttrs hx
  obtain ⟨k', tks, rfl, hb⟩ := pend_kind h
  have hat' := (hasAttrs_blur hb).trans hat
  have hop' : k'.isOpaque = false := by rw [isOpaque_blur hb, ← hidesCode_eq]; exact hk
  unfold pre
  dsimp only
  rw [(seen_free he hfine h).2]
  have hid : visitMode sc cx (.mk k' as tks) = (cx, .mk k' as tks) →
      (nestedStep sc (visitMode sc cx (.mk k' as tks)).1 (visitMode sc cx (.mk k' as tks)).2).1.errs =
        cx.errs ++ nestedReports J (.mk k as ks) ∧
      ∃ k1 pks, (nestedStep sc (visitMode sc cx (.mk k' as tks)).1
        (visitMode sc cx (.mk k' as tks)).2).2 = .mk k1 (dropFirst (named "nested") as) pks ∧
      k1.isOpaque = false ∧ k1.hasAttrs = true := by
    intro hv
    rw [hv]
    refine ⟨nestedStep_reports_pend hR.does hR.own he hk hfine h, ?_⟩
    obtain ⟨pks, hp⟩ := nestedStep_top (cx := cx) (as := as) (ks := tks) hR.own hat'
    exact ⟨k', pks, hp, hop', hat'⟩
  have herr := visitMode_errs sc cx (.mk k' as tks)
  by_cases hret : k = .eReturn
  · subst hret
    have hk' := blurK_rigid hb (by simp)
    subst hk'
    obtain ⟨tks2, hv⟩ : ∃ tks2, (visitMode sc cx (.mk .eReturn as tks)).2 = .mk .eReturn as tks2 := by
      unfold visitMode visitReturn visitTry
      repeat' split
      all_goals first
        | exact ⟨_, rfl⟩
        | (rename_i heq; cases heq; exact ⟨_, rfl⟩)
        | (rename_i heq _; cases heq)
    rw [hv]
    refine ⟨?_, ?_⟩
    · rw [nestedStep_reports (J := J) hR.own rfl he rfl, herr]
      intro _
      have hl : lacksElse J (.mk .eReturn as ks) = false := by
        rw [lacksElse.eq_def]; dsimp only; simp
      rw [hl]
      unfold childExpr
      have : ∀ as, isUnreachable (visitMode sc cx (.mk .eReturn as tks)).1
          (.mk .eReturn as tks2) = true := by
        intro as; unfold isUnreachable; simp
      have : isUnreachable (visitMode sc cx (.mk .eReturn as tks)).1
          (.mk .eReturn (dropFirst (named "nested") as) tks2) = true := by
        unfold isUnreachable; simp
      rw [this]; simp
    · obtain ⟨pks, hp⟩ := nestedStep_top (cx := (visitMode sc cx (.mk .eReturn as tks)).1) (as := as)
        (ks := tks2) (k := .eReturn) hR.own rfl
      exact ⟨_, pks, hp, rfl, rfl⟩
  · by_cases htry : k = .eTry
    · subst htry
      have hk' := blurK_rigid hb (by simp)
      subst hk'
      by_cases hv : visitMode sc cx (.mk .eTry as tks) = (cx, .mk .eTry as tks)
      · exact hid hv
      · obtain ⟨hmode, te, hv⟩ : cx.mode = .try_ ∧ ∃ tks2, visitMode sc cx (.mk .eTry as tks) =
            ((cx.nextExpr (pathE (.ofIdents ["err"]))).1, .mk .eMatch as tks2) := by
          unfold visitMode visitReturn visitTry at hv ⊢
          revert hv
          repeat' split
          all_goals first
            | (intro hv; exact absurd rfl hv)
            | (rename_i heq; cases heq; done)
            | (rename_i heq _; cases heq; intro _; exact ⟨by assumption, _, rfl⟩)
        rw [hv]
        have hF' := hR.does.same (Same.next cx [] (pathE (.ofIdents ["err"])))
        have hJ := hR.does.tries_branches (hR.does.tries.mp hmode)
        refine ⟨?_, ?_⟩
        · dsimp only
          rw [nestedStep_eq hR.own rfl, nestedReports_expr he]
          have hl : lacksElse J (.mk .eTry as ks) = false := by
            rw [lacksElse.eq_def]; dsimp only; simp
          rw [hl]
          cases as.find? (named "nested") with
          | none => simp [Cx.nextExpr, Cx.nextExprAttrs]
          | some a =>
            dsimp only
            split
            · unfold childExpr
              have : (cx.nextExpr (pathE (.ofIdents ["err"]))).1.visitLast = false :=
                hF'.branches.trans hJ
              rw [this]
              simp [Cx.nextExpr, Cx.nextExprAttrs]
            · simp [Cx.nextExpr, Cx.nextExprAttrs, Cx.error]
        · obtain ⟨pks, hp⟩ := nestedStep_top (cx := (cx.nextExpr (pathE (.ofIdents ["err"]))).1)
            (as := as) (ks := te) (k := .eMatch) hR.own rfl
          exact ⟨_, pks, hp, rfl, rfl⟩
    · refine hid (visitMode_other ?_ ?_)
      · rintro rfl
        exact hret (blurK_rigid hb.symm (by simp))
      · rintro rfl
        exact htry (blurK_rigid hb.symm (by simp))

/-- What is reported about an arm or a `let` before its kids are visited. -/
theorem preSub_reports {J : Job} {cx : Cx} {sc : Scope} {w : Where} {seen : List String}
    {ts : List Target} {r : Role} {k : Kind} {as : List Attr} {ks : List Node} {t : Node}
    (hR : Ready J w sc cx) (hkind : (∃ p, k = .arm p) ∨ ∃ p, k = .sLocal p)
    (hfine : Fine J seen r (.mk k as ks)) (h : Alike J.en t (pend J (hits ts) r (.mk k as ks))) :
    (preSub .visitor sc cx t).1.errs = cx.errs ++ nestedReports J (.mk k as ks) ∧
    ∃ pks, (preSub .visitor sc cx t).2 = .mk k (dropFirst (named "nested") as) pks := by
  have hk : hidesCode k = false := by obtain ⟨p, rfl⟩ | ⟨p, rfl⟩ := hkind <;> rfl
  have hrig : ∀ p, k ≠ .ePath false p := by obtain ⟨p, rfl⟩ | ⟨p, rfl⟩ := hkind <;> simp
  have hx : isExpression k = false := by obtain ⟨p, rfl⟩ | ⟨p, rfl⟩ := hkind <;> rfl
  have hro : roleP J r k as ks = role J r k as ks := by
    unfold roleP
    split
    · rename_i hr
      subst hr
      simp [role, hx]
    · rfl
  have hkr : ∀ r n i, kidRoleP r k n i = .plain := by
    obtain ⟨p, rfl⟩ | ⟨p, rfl⟩ := hkind <;> intros <;> rfl
  have hH : ∀ r i, kidH (hits ts) r k as i = hits (kidTargets ts r k as i) :=
    fun r i => kidH_hits ts r k as i
  rw [pend, hk, hro] at h
  simp only [Bool.false_eq_true, if_false, hkr, hH] at h
  obtain ⟨tks, rfl, hl⟩ := h.rigid hrig
  have hat : k.hasAttrs = true := by obtain ⟨p, rfl⟩ | ⟨p, rfl⟩ := hkind <;> rfl
  have hg := grammatical_mk hfine.gram hk
  have hfree : hasAttrL NAME ks = false := by
    have := hfine.free
    rw [hasAttr_mk, Bool.or_eq_false_iff, ← hidesCode_eq, hk] at this
    simpa using this.2
  unfold preSub
  dsimp only
  rw [hR.own]
  simp only [Bool.false_eq_true, if_false]
  unfold Node.findRemoveAttr
  dsimp only
  rw [hat]
  simp only [if_true, find_drop]
  unfold nestedReports
  simp only [Node.rawAttrs]
  have hnn : as.find? (named NESTED) = as.find? (named "nested") := rfl
  rw [hnn]
  cases hfr : as.find? (named "nested") with
  | none => exact ⟨by simp, tks, by simp [dropFirst_absent hfr]⟩
  | some a =>
    simp only [Option.map_some]
    have child : ∀ b tb H, b ∈ ks → (marked "nested" as = true → Alike J.en tb (pend J H .plain b)) →
        (visitNested sc cx tb a).1.errs = cx.errs ++
          if a.form == .path then if lacksElse J b then [.missingElse] else []
          else [.nestedNotPath] := by
      intro b tb H hb hbt
      unfold visitNested
      rw [hR.own]
      simp only [Bool.not_false, Cx.assert, if_true]
      by_cases hp : (a.form == .path) = true
      · rw [if_pos hp, if_pos hp]
        have hall : ks.all isExprNode = true := by
          have := hg.1
          obtain ⟨p, rfl⟩ | ⟨p, rfl⟩ := hkind
          · simp only [kidsOk, Bool.and_eq_true] at this; exact this.2
          · simpa [kidsOk] using this
        exact childExpr_lacks b H tb cx hR.does (List.all_eq_true.mp hall b hb)
          (hasAttrL_mem hfree b hb) (grammaticalL_mem hg.2 hb) (hbt (find_marked hfr hp))
      · rw [if_neg hp, if_neg hp]
        rfl
    obtain ⟨p, rfl⟩ | ⟨p, rfl⟩ := hkind
    · -- an arm
      have hlen : (∃ b, ks = [b]) ∨ ∃ g b, ks = [g, b] := by
        have := hg.1
        simp only [kidsOk, Bool.and_eq_true, Bool.or_eq_true, beq_iff_eq] at this
        rcases this.1 with h1 | h1
        · exact .inl (List.length_eq_one_iff.mp h1)
        · exact .inr (two h1)
      have key : marked "nested" as = true →
          AlikeL J.en tks (pendL J (fun _ => hits (through ts (.arm p) as)) (fun _ => .plain) ks) := by
        intro hm
        have hb : role J r (.arm p) as ks ≠ .branch := by
          intro hb
          rw [role_arm_branch hb] at hm
          cases hm
        simpa [kidsP, hb, kidTargets] using hl
      have hlent : tks.length = ks.length := by
        rw [hl.length]
        simp only [kidsP]
        split
        · have : ∀ l : List Node, (wrapLast J l).length = l.length := by
            intro l
            induction l with
            | nil => rfl
            | cons a l ih => cases l with
              | nil => rfl
              | cons b l => simp [wrapLast, ih]
          rw [this, pendL_length]
        · rw [pendL_length]
      rcases hlen with ⟨b, rfl⟩ | ⟨g, b, rfl⟩
      · obtain ⟨tb, rfl⟩ := List.length_eq_one_iff.mp hlent
        refine ⟨?_, _, rfl⟩
        simp only [subject, List.getLast?_singleton]
        refine child b tb (hits (through ts (.arm p) as)) (by simp) fun hm => ?_
        have := key hm
        rw [pendL, pendL, alikeL_cons] at this
        exact this.1
      · obtain ⟨tg, tb, rfl⟩ := two hlent
        refine ⟨?_, _, rfl⟩
        have : subject (.mk (.arm p) as [g, b]) = some b := rfl
        rw [this]
        refine child b tb (hits (through ts (.arm p) as)) (by simp) fun hm => ?_
        have := key hm
        rw [pendL, pendL, pendL, alikeL_cons, alikeL_cons] at this
        exact this.2.1
    · -- a `let`
      have hl2 : AlikeL J.en tks (pendL J (fun _ => hits (through ts (.sLocal p) as))
          (fun _ => .plain) ks) := by
        simpa [kidsP, kidTargets] using hl
      cases ks with
      | nil =>
        rw [alikeL_nil hl2]
        exact ⟨by simp [subject], _, rfl⟩
      | cons e els =>
        rw [pendL] at hl2
        obtain ⟨te, tels, rfl, h1, h2⟩ := alikeL_inv hl2
        exact ⟨child e te _ (by simp) fun _ => h1, _, rfl⟩

end AutoEnums
