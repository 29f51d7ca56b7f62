import Verif.Lemmas.ReportsStep

/-! # Lemmas: which errors a visit reports -/

namespace AutoEnums

open Spec Judg

/-! ## The kids that are visited -/

theorem reports_nil {J : Job} {k : Kind} {ks : List Node} (hk : hidesCode k = false) :
    reports J (.mk k [] ks) = reportsL J ks := by
  have hn : nestedReports J (.mk k [] ks) = [] := by
    simp [nestedReports, Node.rawAttrs]
  have hh : ∀ k, helperReports k [] = [] := by intro k; simp [helperReports, badForm]
  have hl : ∀ c, lateReports J c k [] ks = [] := by
    intro c
    rw [lateReports_plain (by rintro p x rfl; cases hk), hh]
  rw [reports]
  cases hc : carries k <;> simp [hn, hl, hk]

theorem reportsL_append {J : Job} : ∀ {l l' : List Node},
    reportsL J (l ++ l') = if (reportsL J l).isEmpty then reportsL J l' else reportsL J l := by
  intro l
  induction l with
  | nil => intro l'; simp [reportsL]
  | cons a l ih =>
    intro l'
    rw [List.cons_append, reportsL, reportsL, ih]
    cases ha : (reports J a).isEmpty <;> simp [ha]

theorem reports_ctor {J : Job} (e : Node) : reports J (ctor J [] e) = reports J e := by
  unfold ctor construct
  rw [reports_nil rfl, reportsL, reports_nil rfl, reportsL, reportsL, reportsL]
  cases he : (reports J e).isEmpty with
  | false => simp
  | true => simpa using (List.isEmpty_iff.mp he).symm

theorem reportsL_one {J : Job} (e : Node) : reportsL J [e] = reports J e := by
  rw [reportsL, reportsL]
  cases he : (reports J e).isEmpty with
  | false => simp
  | true => simpa using (List.isEmpty_iff.mp he).symm

theorem reportsL_wrapLast {J : Job} (l : List Node) : reportsL J (wrapLast J l) = reportsL J l := by
  induction l with
  | nil => rfl
  | cons a l ih =>
    cases l with
    | nil => simp only [wrapLast, reportsL_one, reports_ctor]
    | cons b l => rw [wrapLast, reportsL, ih, ← reportsL]

theorem reportsL_vkids {J : Job} {w : Where} {ts : List Target} {r : Role} {k : Kind}
    {as : List Attr} {ks : List Node} : reportsL J (vkids J w ts r k as ks) = reportsL J ks := by
  have h1 : ∀ l, reportsL J (wrapHead J l) = reportsL J l := by
    intro l
    cases l with
    | nil => simp only [wrapHead, reportsL_one, reports_ctor, reports_nil (k := .eTuple) rfl]
    | cons a l => simp only [wrapHead, reportsL, reports_ctor]
  have h2 : ∀ l, reportsL J (wrapAll J l) = reportsL J l := by
    intro l
    simp only [wrapAll, reportsL_one, reports_ctor, reports_nil (k := .sExpr _) rfl,
      reports_nil (k := .eBlock _) rfl]
  have h3 : reportsL J (tryTail J) = [] := by
    have hc : ∀ e, reports J (construct [] J.en "" e) = reports J e := reports_ctor
    simp only [tryTail, tryMatch, Node.kids, List.tail_cons, reportsL, reports_nil (k := .arm _) rfl,
      reports_nil (k := .eBlock _) rfl, reports_nil (k := .sExpr _) rfl,
      reports_nil (k := .eReturn) rfl, reports_nil (k := .eCall) rfl,
      reports_nil (k := .ePath _ _) rfl, hc]
    simp
  cases k with
  | eReturn => simp only [vkids]; split <;> simp [h1]
  | eBreak => simp only [vkids]; split <;> simp [h1]
  | eTry =>
    simp only [vkids]
    split
    · rw [reportsL_append, h3]
      cases he : (reportsL J ks).isEmpty with
      | false => simp
      | true => simpa using (List.isEmpty_iff.mp he).symm
    · rfl
  | arm => simp only [vkids]; split <;> simp [reportsL_wrapLast]
  | block => simp only [vkids]; split <;> simp [h2]
  | eBlock => simp only [vkids]; split <;> simp [h2]
  | _ => rfl

/-! ## Nothing is visited after an error -/

theorem mapA_skip {g : Cx → Node → Cx × Node}
    (h : ∀ cx n, cx.errs ≠ [] → (g cx n).2 = n ∧ (g cx n).1.errs = cx.errs) :
    ∀ (l : List Node) (cx : Cx), cx.errs ≠ [] →
      (mapA g cx l).2 = l ∧ (mapA g cx l).1.errs = cx.errs := by
  intro l
  induction l with
  | nil => intro cx _; exact ⟨rfl, rfl⟩
  | cons a l ih =>
    intro cx hc
    simp only [mapA]
    obtain ⟨h1, h2⟩ := h cx a hc
    obtain ⟨h3, h4⟩ := ih _ (by rw [h2]; exact hc)
    rw [h1, h3, h4, h2]
    exact ⟨rfl, rfl⟩

theorem walk_skip {g : Cx → Node → Cx × Node}
    (h : ∀ cx n, cx.errs ≠ [] → (g cx n).2 = n ∧ (g cx n).1.errs = cx.errs) (n : Node) (cx : Cx)
    (hc : cx.errs ≠ []) : (walk g cx n).2 = n ∧ (walk g cx n).1.errs = cx.errs := by
  cases n with
  | mk k as ks =>
    obtain ⟨h1, h2⟩ := mapA_skip h ks cx hc
    unfold walk
    by_cases hk : k.isOpaque = true
    · simp [hk]
    · simp [hk, h1, h2]

theorem visit_skip (env : Env) : ∀ (f : Nat) (sc : Scope) (cx : Cx) (n : Node), cx.errs ≠ [] →
    (visit env f .visitor sc cx n).2 = n ∧ (visit env f .visitor sc cx n).1.errs = cx.errs := by
  intro f
  induction f with
  | zero => intro sc cx n _; exact ⟨rfl, rfl⟩
  | succ f ih =>
    intro sc cx n hc
    have he : cx.hasError = true := by
      unfold Cx.hasError
      cases h : cx.errs with
      | nil => exact absurd h hc
      | cons => rfl
    simp only [visit, visitorStep]
    split
    · simp
    · split
      · unfold visitStmt; rw [if_pos he]; exact ⟨rfl, rfl⟩
      · split
        · unfold visitArm; rw [if_pos he]; exact ⟨rfl, rfl⟩
        · exact walk_skip (fun cx n => ih sc cx n) n cx hc

/-! ## A visit -/

/-- What a visit is to report. -/
def TellsAll (rec : Rec) : Prop := ∀ sc cx t J seen ts r w o, Clean cx → Inv cx → Ready J w sc cx →
  Fine J seen r o → Alike J.en t (pend J (hits ts) r o) → (rec .visitor sc cx t).1.panics = [] →
  (rec .visitor sc cx t).1.errs = reports J o

theorem Inv.same {a b : Cx} (h : Inv a) (hs : Same a b) : Inv b :=
  inv_modeOnly hs.mode hs.lastMode h

theorem mapA_panics {env : Env} {rec : Rec} (hg : GoodRec env rec) {vk : VK} {sc : Scope} :
    ∀ (l : List Node) (cx : Cx), Inv cx → (mapA (rec vk sc) cx l).1.panics = [] →
      cx.panics = [] := by
  intro l
  induction l with
  | nil => intro cx _ h; exact h
  | cons a l ih =>
    intro cx hi h
    have ht := hg.tr vk sc cx a hi
    exact ht.panics_mono rfl (ih _ (ht.inv hi) h)

theorem mapA_tells {env : Env} {f : Nat} (ht : TellsAll (visit env f)) {J : Job} {w : Where}
    {sc : Scope} {seen : List String} : ∀ (ol tl : List Node) (cx : Cx) (T : Nat → List Target)
    (ρ : Nat → Role), Clean cx → Inv cx → Ready J w sc cx → FineL J seen ρ ol →
    AlikeL J.en tl (pendL J (fun i => hits (T i)) ρ ol) →
    (mapA (visit env f .visitor sc) cx tl).1.panics = [] →
    (mapA (visit env f .visitor sc) cx tl).1.errs = reportsL J ol := by
  intro ol
  induction ol with
  | nil =>
    intro tl cx T ρ hc _ _ _ hl _
    rw [pendL] at hl
    rw [alikeL_nil hl, reportsL]
    exact hc.1
  | cons o ol ih =>
    intro tl cx T ρ hc hi hR hf hl hp
    rw [pendL] at hl
    obtain ⟨t, tl, rfl, h1, h2⟩ := alikeL_inv hl
    rw [fineL_cons] at hf
    simp only [mapA] at hp ⊢
    have hg := visit_good env f
    have htr := hg.tr .visitor sc cx t hi
    have hp1 := mapA_panics hg _ _ (htr.inv hi) hp
    have he := ht sc cx t J seen _ _ w o hc hi hR hf.1 h1 hp1
    rw [reportsL]
    by_cases hr : (visit env f .visitor sc cx t).1.errs = []
    · have hr' : reports J o = [] := he.symm.trans hr
      rw [hr']
      simp only [List.isEmpty_nil, if_true]
      have hs := ((visit_run env f).run .visitor sc cx t ⟨hr, hp1⟩).2.keeps
      exact ih tl _ (fun i => T (i + 1)) _ ⟨hr, hp1⟩ (hi.same hs) (hR.same hs) hf.2 h2 hp
    · rw [(mapA_skip (fun cx n => visit_skip env f sc cx n) _ _ hr).2, he]
      have : (reports J o).isEmpty = false := by
        cases h : reports J o with
        | nil => rw [h] at he; exact absurd he hr
        | cons => rfl
      rw [this]
      simp

theorem reports_mk {J : Job} {k : Kind} {as : List Attr} {ks : List Node} (hc : carries k = true)
    (hk : hidesCode k = false) : reports J (.mk k as ks) =
      (if nestedReports J (.mk k as ks) = [] then reportsL J ks
        else nestedReports J (.mk k as ks)) ++ helperReports k as := by
  rw [reports]
  simp only [hc, hk, if_true]
  rw [lateReports_plain (by rintro p x rfl; cases hk)]
  cases h : nestedReports J (.mk k as ks) <;> simp

theorem helperReports_kind {k k' : Kind} {as : List Attr} (h : k'.hasAttrs = k.hasAttrs) :
    helperReports k' as = helperReports k as := by
  unfold helperReports; rw [h]

theorem findRemoveAttr_none {k : Kind} {as : List Attr} {ks : List Node} {s : String}
    (h : anyAttr as s = false) : (Node.mk k as ks).findRemoveAttr s = none := by
  unfold Node.findRemoveAttr
  dsimp only
  split
  · rw [find_drop]
    have : as.find? (named s) = none := by
      rw [List.find?_eq_none]
      intro a ha
      simp only [anyAttr, List.any_eq_false] at h
      rw [named_iff]
      exact h a ha
    rw [this]; rfl
  · rfl

theorem post_panics {env : Env} {sc : Scope} {cx : Cx} {n : Node}
    (h : (post .visitor sc cx n).1.panics = []) : cx.panics = [] := by
  unfold post at h
  dsimp only at h
  split at h
  · exact (visitMarker_tr (env := env) sc cx n).panics_mono rfl
      ((findRemoveAttrs_tr (env := env) sc _ _).panics_mono rfl h)
  · exact h

theorem visitExpr_tells {env : Env} {f : Nat} (ht : TellsAll (visit env f)) {sc : Scope} {cx : Cx}
    {t : Node} {J : Job} {seen : List String} {ts : List Target} {r : Role} {w : Where} {o : Node}
    {semi : Bool} (hc : Clean cx) (hi : Inv cx) (hR : Ready J w sc cx) (hf : Fine J seen r o)
    (he : isExprNode o = true) (h : Alike J.en t (pend J (hits ts) r o))
    (hp : (visitExpr env (visit env f) sc cx t semi).1.panics = []) :
    (visitExpr env (visit env f) sc cx t semi).1.errs = reports J o := by
  have hg := visit_good env f
  have key : visitExpr env (visit env f) sc cx t semi = post .visitor (enter .visitor sc t)
      (vsVisitExpr env (visit env f) .visitor (enter .visitor sc t)
        (pre .visitor (enter .visitor sc t) cx t).1 (pre .visitor (enter .visitor sc t) cx t).2 semi).1
      (vsVisitExpr env (visit env f) .visitor (enter .visitor sc t)
        (pre .visitor (enter .visitor sc t) cx t).1
        (pre .visitor (enter .visitor sc t) cx t).2 semi).2 := by
    have ha : cx.assert (!cx.hasError) .visitAfterError = cx := by
      have : cx.hasError = false := by simp [Cx.hasError, hc.1]
      simp [Cx.assert, this]
    unfold visitExpr
    rw [ha]
    rfl
  rw [key] at hp ⊢
  cases o with
  | mk k as ks =>
  have hname := (seen_free (cx := cx) he hf h).1
  have hseen := (seen_free (cx := cx) he hf h).2
  have h0 := h
  obtain ⟨k', tks, rfl, hb⟩ := pend_kind h
  have hent : enter .visitor sc (.mk k' as tks) = sc.check k' := by
    unfold enter
    dsimp only
    rw [hname]
    rfl
  rw [hent] at hp ⊢
  have hR' := hR.enter hb
  have hsame := pre_same .visitor (sc.check k') cx (.mk k' as tks)
  have hi1 := hi.same hsame
  have hR1 := hR'.same hsame
  cases hk : hidesCode k with
  | false =>
    have hx := isExpr_isExpression he hk
    have hx' : isExpression k = true := hx
    have hca : carries k = true := by cases k <;> first | exact hx' | rfl
    obtain ⟨hpe, k1, pks, hp2, hop, hat⟩ := pre_reports hR' he hk hf h
    have hnm : ∀ p x, k1 ≠ .eMacro p x := by rintro p x rfl; cases hop
    generalize hpr : pre .visitor (sc.check k') cx (.mk k' as tks) = pr at *
    obtain ⟨cx1, n1⟩ := pr
    dsimp only at hp hpe hp2 hi1 hR1 hsame ⊢
    subst hp2
    have hvw : vsVisitExpr env (visit env f) .visitor (sc.check k') cx1
        (.mk k1 (dropFirst (named "nested") as) pks) semi =
        walk (visit env f .visitor (sc.check k')) cx1 (.mk k1 (dropFirst (named "nested") as) pks) := by
      unfold vsVisitExpr
      rw [findRemoveAttr_none (anyAttr_dropFirst hf.name)]
    rw [hvw] at hp ⊢
    have hwk : walk (visit env f .visitor (sc.check k')) cx1
        (.mk k1 (dropFirst (named "nested") as) pks) =
        ((mapA (visit env f .visitor (sc.check k')) cx1 pks).1,
          .mk k1 (dropFirst (named "nested") as)
            (mapA (visit env f .visitor (sc.check k')) cx1 pks).2) := by
      simp [walk, hop]
    rw [hwk] at hp ⊢
    dsimp only at hp ⊢
    have hpm := post_panics (env := env) hp
    have hp1 := mapA_panics hg _ _ hi1 hpm
    rw [post_reports hR'.own hnm, reports_mk hca hk, helperReports_drop,
      helperReports_kind (hat.trans (isExpression_hasAttrs hx').symm)]
    congr 1
    rw [hc.1, List.nil_append] at hpe
    by_cases hn : nestedReports J (.mk k as ks) = []
    · rw [if_pos hn]
      rw [hn] at hpe
      have hcl : Clean cx1 := ⟨hpe, hp1⟩
      have hal := pre_expr hR' he hk hf h (by rw [hpr]; exact hcl)
      rw [hpr] at hal
      obtain ⟨k2, pks2, heq, hb1, hl⟩ := hal.inv
      cases heq
      rw [mapA_tells ht _ _ _ _ _ hcl hi1 hR1 (hf.vkids hk (w.enter k) ts) hl hpm, reportsL_vkids]
    · rw [if_neg hn]
      rw [(mapA_skip (fun cx n => visit_skip env f _ cx n) _ _ (by rw [hpe]; exact hn)).2, hpe]
  | true =>
    have hrig : ∀ p, k ≠ .ePath false p := by rintro p rfl; cases hk
    have hk' : k' = k := blurK_rigid hb hrig
    subst hk'
    have hop : k'.isOpaque = true := by rw [← hidesCode_eq]; exact hk
    rw [pend, hk] at h
    simp only [if_true] at h
    have hl : AlikeL J.en tks ks := by
      obtain ⟨_, heq, hl⟩ := h.rigid hrig
      simp only [Node.mk.injEq, true_and] at heq
      subst heq
      cases k' <;> first | (simp [hidesCode] at hk; done) | (cases he; done) | exact hl
    have hvm : visitMode (sc.check k') cx (.mk k' as tks) = (cx, .mk k' as tks) :=
      visitMode_other (by rintro rfl; cases hk) (by rintro rfl; cases hk)
    have hpre : pre .visitor (sc.check k') cx (.mk k' as tks) =
        nestedStep (sc.check k') cx (.mk k' as tks) := by
      unfold pre
      dsimp only
      rw [hseen, hvm]
    rw [hpre] at hp hsame ⊢
    have hch : ∀ as, childExpr cx (.mk k' as tks) = (cx, .mk k' as tks) := by
      intro as
      unfold childExpr
      split
      · rfl
      · cases k' <;> first | (simp [hidesCode] at hk; done) | rfl
    have hle : lacksElse J (.mk k' as ks) = false := by
      rw [lacksElse.eq_def]
      dsimp only
      cases k' <;> first | (simp [hidesCode] at hk; done) | simp
    have hvw : ∀ (cx : Cx) (as : List Attr), anyAttr as NAME = false →
        vsVisitExpr env (visit env f) .visitor (sc.check k') cx (.mk k' as tks) semi =
          (cx, .mk k' as tks) := by
      intro cx as ha
      unfold vsVisitExpr
      rw [findRemoveAttr_none ha]
      simp [walk, hop]
    cases k' with
    | eVerbatim x =>
      have hns : nestedStep (sc.check (.eVerbatim x)) cx (.mk (.eVerbatim x) as tks) =
          (cx, .mk (.eVerbatim x) as tks) := by
        unfold nestedStep
        rw [hR'.own]
        simp [Node.findRemoveAttr, Kind.hasAttrs]
      rw [hns, hvw _ _ hf.name, post_reports hR'.own (by simp), hc.1]
      rfl
    | eMacro p x =>
      have hpe := nestedStep_reports (J := J) (sc := sc.check (.eMacro p x)) (cx := cx)
        (k := .eMacro p x) (k' := .eMacro p x) (as := as) (ks := ks) (tks := tks) hR'.own rfl he rfl
        (by intro _; rw [hch, hle]; simp)
      have hp2 := nestedStep_attrs (cx := cx) (k := .eMacro p x) (as := as) (ks := tks) hR'.own rfl
        (fun as => by rw [hch])
      have hF := hR.does.same hsame
      generalize hpr : nestedStep (sc.check (.eMacro p x)) cx (.mk (.eMacro p x) as tks) = pr at *
      obtain ⟨cx1, n1⟩ := pr
      dsimp only at hp hpe hp2 hF ⊢
      subst hp2
      rw [hvw _ _ (anyAttr_dropFirst hf.name), post_macro_reports hF hR'.own hl, hpe, hc.1]
      have hld : ∀ c, lateReports J c (.eMacro p x) (dropFirst (named "nested") as) ks =
          lateReports J c (.eMacro p x) as ks := by
        intro c
        unfold lateReports
        simp only [helperReports_drop]
      rw [hld, reports]
      simp [carries, isExpression, hidesCode]
    | _ => first | (cases he; done) | (cases hk; done)

/-- Arms and `let`s. -/
theorem part_tells {env : Env} {f : Nat} (ht : TellsAll (visit env f)) {sc : Scope} {cx : Cx}
    {t : Node} {J : Job} {seen : List String} {ts : List Target} {r : Role} {w : Where} {o : Node}
    (hc : Clean cx) (hi : Inv cx) (hR : Ready J w sc cx) (hf : Fine J seen r o)
    (hkind : (∃ p, o.kind = .arm p) ∨ ∃ p, o.kind = .sLocal p)
    (h : Alike J.en t (pend J (hits ts) r o))
    (hp : (postSub .visitor sc
        (walk (visit env f .visitor sc) (preSub .visitor sc cx t).1 (preSub .visitor sc cx t).2).1
        (walk (visit env f .visitor sc) (preSub .visitor sc cx t).1
          (preSub .visitor sc cx t).2).2).1.panics = []) :
    (postSub .visitor sc
        (walk (visit env f .visitor sc) (preSub .visitor sc cx t).1 (preSub .visitor sc cx t).2).1
        (walk (visit env f .visitor sc) (preSub .visitor sc cx t).1
          (preSub .visitor sc cx t).2).2).1.errs = reports J o := by
  have hg := visit_good env f
  cases o with
  | mk k as ks =>
  replace hkind : (∃ p, k = .arm p) ∨ ∃ p, k = .sLocal p := hkind
  have hk : hidesCode k = false := by obtain ⟨p, rfl⟩ | ⟨p, rfl⟩ := hkind <;> rfl
  have hca : carries k = true := by obtain ⟨p, rfl⟩ | ⟨p, rfl⟩ := hkind <;> rfl
  have hop : k.isOpaque = false := by rw [← hidesCode_eq]; exact hk
  have hsame := preSub_same .visitor sc cx t
  have hi1 := hi.same hsame
  have hR1 := hR.same hsame
  obtain ⟨hpe, pks, hp2⟩ := preSub_reports hR hkind hf h
  generalize hpr : preSub .visitor sc cx t = pr at *
  obtain ⟨cx1, n1⟩ := pr
  dsimp only at hp hpe hp2 hi1 hR1 hsame ⊢
  subst hp2
  have hwk : walk (visit env f .visitor sc) cx1 (.mk k (dropFirst (named "nested") as) pks) =
      ((mapA (visit env f .visitor sc) cx1 pks).1, .mk k (dropFirst (named "nested") as)
        (mapA (visit env f .visitor sc) cx1 pks).2) := by
    simp [walk, hop]
  rw [hwk] at hp ⊢
  dsimp only at hp ⊢
  have hpm := (findRemoveAttrs_tr (env := env) sc _ _).panics_mono rfl hp
  have hp1 := mapA_panics hg _ _ hi1 hpm
  unfold postSub
  dsimp only
  rw [findRemoveAttrs_reports hR.own, reports_mk hca hk, helperReports_drop]
  congr 1
  rw [hc.1, List.nil_append] at hpe
  by_cases hn : nestedReports J (.mk k as ks) = []
  · rw [if_pos hn]
    rw [hn] at hpe
    have hcl : Clean cx1 := ⟨hpe, hp1⟩
    have hal := preSub_pend hR hkind hf h (by rw [hpr]; exact hcl)
    rw [hpr] at hal
    obtain ⟨k2, pks2, heq, hb1, hl⟩ := hal.inv
    cases heq
    rw [mapA_tells ht _ _ _ _ _ hcl hi1 hR1 (hf.vkids hk w ts) hl hpm, reportsL_vkids]
  · rw [if_neg hn]
    rw [(mapA_skip (fun cx n => visit_skip env f _ cx n) _ _ (by rw [hpe]; exact hn)).2, hpe]

theorem visitLocal_eq {rec : Rec} {sc : Scope} {cx : Cx} {n : Node} {p : LetPat}
    (hk : n.kind = .sLocal p) (he : cx.hasError = false) :
    visitLocal rec .visitor sc cx n = postSub .visitor sc
      (walk (rec .visitor sc) (preSub .visitor sc cx n).1 (preSub .visitor sc cx n).2).1
      (walk (rec .visitor sc) (preSub .visitor sc cx n).1 (preSub .visitor sc cx n).2).2 := by
  simp only [visitLocal]
  rw [if_neg (by simp [he])]
  have : (if sc.foreign then (cx, n) else
    match n.findRemoveAttr NESTED with
    | some (a, .mk (.sLocal p) as (e :: els)) =>
      let r := visitNested sc cx e a
      (r.1, .mk (.sLocal p) as (r.2 :: els))
    | some (_, n) => (cx, n)
    | none => (cx, n)) = preSub .visitor sc cx n := by
    unfold preSub
    dsimp only
    split
    · rfl
    · cases hf : n.findRemoveAttr NESTED with
      | none => rfl
      | some r =>
        obtain ⟨a, n'⟩ := r
        have hk' := findRemoveAttr_kind hf
        rw [hk] at hk'
        cases n' with
        | mk k as ks =>
          simp only [Node.kind] at hk'
          subst hk'
          rcases ks with _ | ⟨b, ks⟩ <;> rfl
  rw [← this]
  rfl

theorem visitArm_eq {rec : Rec} {sc : Scope} {cx : Cx} {n : Node} {p : String}
    (hk : n.kind = .arm p) (he : cx.hasError = false) :
    visitArm rec sc cx n = postSub .visitor sc
      (walk (rec .visitor sc) (preSub .visitor sc cx n).1 (preSub .visitor sc cx n).2).1
      (walk (rec .visitor sc) (preSub .visitor sc cx n).1 (preSub .visitor sc cx n).2).2 := by
  unfold visitArm
  rw [if_neg (by simp [he])]
  have : (if sc.foreign then (cx, n) else
    match n.findRemoveAttr NESTED with
    | some (a, .mk (.arm p) as [b]) =>
      let r := visitNested sc cx b a; (r.1, .mk (.arm p) as [r.2])
    | some (a, .mk (.arm p) as [g, b]) =>
      let r := visitNested sc cx b a; (r.1, .mk (.arm p) as [g, r.2])
    | some (_, n) => (cx, n)
    | none => (cx, n)) = preSub .visitor sc cx n := by
    unfold preSub
    dsimp only
    split
    · rfl
    · cases hf : n.findRemoveAttr NESTED with
      | none => rfl
      | some r =>
        obtain ⟨a, n'⟩ := r
        have hk' := findRemoveAttr_kind hf
        rw [hk] at hk'
        cases n' with
        | mk k as ks =>
          simp only [Node.kind] at hk'
          subst hk'
          rcases ks with _ | ⟨b, _ | ⟨g, _ | _⟩⟩ <;> rfl
  rw [← this]
  rfl

theorem reports_bare {J : Job} {k : Kind} {as : List Attr} {ks : List Node}
    (hc : carries k = false) (hk : hidesCode k = false) :
    reports J (.mk k as ks) = reportsL J ks := by
  rw [reports, hc, hk]
  simp

/-- What is reported by a visit that does not run out of fuel. -/
theorem visit_tells (env : Env) : ∀ f, TellsAll (visit env f) := by
  intro f
  induction f with
  | zero =>
    intro sc cx t J seen ts r w o _ _ _ _ _ hp
    simp [visit, Cx.panic] at hp
  | succ f ht =>
    intro sc cx t J seen ts r w o hc hi hR hf h hp
    have he : cx.hasError = false := by simp [Cx.hasError, hc.1]
    have h0 := h
    cases o with
    | mk k as ks =>
    obtain ⟨k', tks, rfl, hb⟩ := pend_kind h
    simp only [visit, visitorStep, Node.kind] at hp ⊢
    by_cases hE : k'.isExpr = true
    · simp only [hE, if_true, he, Bool.false_eq_true, if_false] at hp ⊢
      have hx : isExprNode (.mk k as ks) = true := by
        rw [isExprNode_eq]; exact (isExpr_blur hb).symm.trans hE
      exact visitExpr_tells ht hc hi hR hf hx h0 hp
    simp only [hE, if_false, Bool.false_eq_true] at hp ⊢
    have hrig : ∀ p, k ≠ .ePath false p := by
      rintro p rfl
      exact hE (isExpr_blur hb)
    have hk' : k' = k := blurK_rigid hb hrig
    subst hk'
    by_cases hS : k'.isStmt = true
    · simp only [hS, if_true] at hp ⊢
      unfold visitStmt at hp ⊢
      simp only [he, Bool.false_eq_true, if_false] at hp ⊢
      cases k' with
      | sExpr b =>
        obtain ⟨oe, rfl, hoe⟩ : ∃ oe, ks = [oe] ∧ isExprNode oe = true := by
          have := (grammatical_mk hf.gram rfl).1
          unfold kidsOk at this
          split at this <;> simp_all
        rw [pend_virt w rfl rfl (by simp) (by simp)] at h
        obtain ⟨pks, heq, hl⟩ := h.rigid (by simp)
        simp only [Node.mk.injEq, true_and] at heq
        subst heq
        have hfk := hf.vkids rfl w ts
        simp only [vkids, pendL] at hl hfk
        rw [fineL_cons] at hfk
        obtain ⟨te, m, rfl, h1, h2⟩ := alikeL_inv hl
        cases alikeL_nil h2
        dsimp only at hp ⊢
        rw [visitExpr_tells ht hc hi hR hfk.1 hoe h1 hp, reports_bare rfl rfl, reportsL_one]
      | sLocal p =>
        have hany : (Node.mk (.sLocal p) as tks).anyAttr NAME = false := anyAttr_mk (by simp) hf.name
        simp only [hany, Bool.false_eq_true, if_false] at hp ⊢
        unfold vsVisitStmt at hp ⊢
        dsimp only at hp ⊢
        rw [findRemoveAttr_none hf.name] at hp ⊢
        dsimp only at hp ⊢
        rw [visitLocal_eq rfl he] at hp ⊢
        exact part_tells ht hc hi hR hf (.inr ⟨p, rfl⟩) h0 hp
      | sItem i =>
        have hany : (Node.mk (.sItem i) as tks).anyAttr NAME = false := anyAttr_mk (by simp) hf.name
        simp only [hany, Bool.false_eq_true, if_false] at hp ⊢
        rw [vsVisitStmt_inert (by simp [Node.kind]) (by simp), reports]
        exact hc.1
      | sMacro p x =>
        have hany : (Node.mk (.sMacro p x) as tks).anyAttr NAME = false := anyAttr_mk (by simp) hf.name
        simp only [hany, Bool.false_eq_true, if_false] at hp ⊢
        rw [vsVisitStmt_inert (by simp [Node.kind]) (by simp), reports]
        exact hc.1
      | _ => cases hS
    · simp only [hS, Bool.false_eq_true, if_false] at hp ⊢
      by_cases ha : ∃ p, k' = .arm p
      · obtain ⟨p, rfl⟩ := ha
        dsimp only at hp ⊢
        rw [visitArm_eq rfl he] at hp ⊢
        exact part_tells ht hc hi hR hf (.inl ⟨p, rfl⟩) h0 hp
      · have hkk : k' = .block ∨ ∃ a b, k' = .iFn a b := by
          cases k' <;> first
            | (simp [Kind.isExpr] at hE; done)
            | (simp [Kind.isStmt] at hS; done)
            | (exact absurd ⟨_, rfl⟩ ha)
            | exact .inl rfl
            | exact .inr ⟨_, _, rfl⟩
        have hk : hidesCode k' = false := by obtain rfl | ⟨_, _, rfl⟩ := hkk <;> rfl
        have hx : isExpression k' = false := by obtain rfl | ⟨_, _, rfl⟩ := hkk <;> rfl
        have hop : k'.isOpaque = false := by rw [← hidesCode_eq]; exact hk
        have hca : carries k' = false := by obtain rfl | ⟨_, _, rfl⟩ := hkk <;> rfl
        rw [pend_virt w hk hx (by rintro p rfl; simp at hkk) (by rintro p rfl; simp at hkk)] at h
        obtain ⟨pks, heq, hl⟩ := h.rigid hrig
        simp only [Node.mk.injEq, true_and] at heq
        subst heq
        have main : (mapA (visit env f .visitor sc) cx tks).1.panics = [] →
            (mapA (visit env f .visitor sc) cx tks).1.errs = reports J (.mk k' as ks) := by
          intro hp
          rw [mapA_tells ht _ _ _ _ _ hc hi hR (hf.vkids hk w ts) hl hp, reportsL_vkids,
            reports_bare hca hk]
        obtain rfl | ⟨_, _, rfl⟩ := hkk
        · exact main hp
        · exact main hp

end AutoEnums
