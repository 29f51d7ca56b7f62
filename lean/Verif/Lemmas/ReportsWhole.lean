import Verif.Lemmas.ReportsVisit

/-! # Lemmas: which errors the expansion of a whole input reports -/

namespace AutoEnums

open Spec

/-- `reportsInput` for attributed expressions. -/
def reportsExpr (en : Ident) (m : String) (semi : Bool) (e : Node) : List Err :=
  match semi, e with
  | false, .mk (.eClosure _) _ [b] => reportsFrom (closureJob en m b) b
  | semi, e => reportsFrom (exprJob en m semi) e

theorem reportsExpr_start (en : Ident) (m : String) (e : Node) :
    reportsExpr en m false e = reportsFrom (jobOfExpr en m e) (bodyOf e) := by
  unfold reportsExpr jobOfExpr bodyOf
  split
  · rfl
  · rename_i h2
    split
    · exact absurd rfl (h2 _ _ _ rfl)
    · rfl

theorem lacksElseLast_diverges (J : Job) : ∀ ss, divergesLast J.marker ss = true →
    lacksElseLast J ss = false
  | [], _ => rfl
  | [.mk k as ks], h => by
    unfold lacksElseLast
    split
    · rename_i h1; cases h1
    · rename_i h1
      cases h1
      rename_i e
      simp only [divergesLast] at h
      obtain ⟨k, as, ks⟩ := e
      unfold lacksElse
      rw [h]
      simp
    · rfl
    · rename_i h1; cases h1
  | _ :: s :: ss, h => by
    simp only [divergesLast] at h
    simp only [lacksElseLast]
    exact lacksElseLast_diverges J (s :: ss) h

theorem lacksElseLast_off (J : Job) (hb : J.branches = false) : ∀ ss, lacksElseLast J ss = false
  | [] => rfl
  | [.mk k as ks] => by
    unfold lacksElseLast
    split
    · rename_i h1; cases h1
    · rename_i h1
      cases h1
      rename_i e
      obtain ⟨k, as, ks⟩ := e
      unfold lacksElse
      simp [hb]
    · rfl
    · rename_i h1; cases h1
  | _ :: s :: ss => by
    simp only [lacksElseLast]
    exact lacksElseLast_off J hb (s :: ss)

theorem reports_body (J : Job) (ss : List Node) :
    (if lacksElseLast J ss then [.missingElse] else reportsL J ss) =
      reportsFrom J (.mk (.eBlock none) [] ss) := by
  have h1 : lacksElse J (.mk (.eBlock none) [] ss) = lacksElseLast J ss := by
    unfold lacksElse
    simp only
    by_cases hb : J.branches = true
    · by_cases hd : divergesLast J.marker ss = true
      · rw [lacksElseLast_diverges J ss hd, Bool.and_false]
      · have : diverges J.marker (.mk (.eBlock none) [] ss) = false := by
          unfold diverges
          simpa [marked] using hd
        rw [this, hb]
        simp
    · rw [Bool.not_eq_true] at hb
      rw [hb, lacksElseLast_off J hb ss]
      simp
  have h2 : reports J (.mk (.eBlock none) [] ss) = reportsL J ss := by
    rw [reports]
    simp [carries, isExpression, nestedReports, Node.rawAttrs, hidesCode, lateReports,
      helperReports, badForm]
  unfold reportsFrom
  rw [h1, h2]

theorem target_reports {env : Env} {f : Nat} {J : Job} {cx : Cx} {e : Node} (hJ : Does J cx)
    (hc : cx.errs = []) (hi : Inv cx) (ha : (childExpr cx e).1.analysisExit env = false)
    (he : isExprNode e = true) (hf : Fine J [] J.start e)
    (hp : (expandTarget env (visit env f) cx e).1.panics = []) :
    (expandTarget env (visit env f) cx e).1.errs = reportsFrom J e := by
  unfold expandTarget at hp ⊢
  dsimp only at hp ⊢
  simp only [ha, Bool.false_eq_true, if_false] at hp ⊢
  have hs := childExpr_same e cx
  have hi1 := hi.same hs
  have hp1 := ((visit_good env f).tr .visitor {} _ (childExpr cx e).2 hi1).panics_mono rfl hp
  have hid : Alike J.en e (pend J (hits []) .plain e) := by
    have : (hits [] : Hit) = noHit := by funext l; cases l <;> rfl
    rw [this, pend_id]
    rfl
  have hle := childExpr_lacks e (hits []) e cx hJ he hf.free hf.gram hid
  rw [hc, List.nil_append] at hle
  unfold reportsFrom
  by_cases hl : lacksElse J e = true
  · rw [if_pos hl] at hle ⊢
    rw [(visit_skip env f {} _ (childExpr cx e).2 (by rw [hle]; simp)).2, hle]
  · rw [if_neg hl] at hle ⊢
    exact visit_tells env f {} _ _ J [] [] J.start {} e ⟨hle, hp1⟩ hi1
      ⟨hJ.same hs, rfl, rfl, rfl⟩ hf (target_pend hJ he hf) hp

theorem expandExpr_reports {env : Env} {f : Nat} {cx : Cx} {e : Node} (hroot : cx.root = true)
    (hm : cx.mode = .default) (hc : cx.errs = []) (ha : Goes env cx e)
    (ho : ordinaryExpr cx.ident cx.marker (cx.lastMode == .never) e = true)
    (hp : (expandExpr env (visit env f) cx e).1.panics = []) :
    (expandExpr env (visit env f) cx e).1.errs =
      reportsExpr cx.ident cx.marker (cx.lastMode == .never) e := by
  have hv : cx.visitLast = !(cx.lastMode == .never) := by
    cases h : cx.lastMode <;> simp [Cx.visitLast, hm, h] <;> rfl
  have hi : Inv cx := fun h => absurd hm h
  have plain : (∀ i as b, cx.visitLast = true → e ≠ .mk (.eClosure i) as [b]) →
      (expandTarget env (visit env f) cx e).1.panics = [] →
      (expandTarget env (visit env f) cx e).1.errs =
        reportsExpr cx.ident cx.marker (cx.lastMode == .never) e := by
    intro hne hp
    have hx : ordinaryExpr cx.ident cx.marker (cx.lastMode == .never) e =
        ordinaryIn (exprJob cx.ident cx.marker (cx.lastMode == .never))
          (exprJob cx.ident cx.marker (cx.lastMode == .never)).start e ∧
        reportsExpr cx.ident cx.marker (cx.lastMode == .never) e =
          reportsFrom (exprJob cx.ident cx.marker (cx.lastMode == .never)) e := by
      unfold ordinaryExpr reportsExpr
      generalize (cx.lastMode == VisitLastMode.never) = semi at *
      cases semi with
      | true => exact ⟨rfl, rfl⟩
      | false =>
        constructor
        · split
          · exact absurd rfl (hne _ _ _ hv)
          · rfl
        · split
          · exact absurd rfl (hne _ _ _ hv)
          · rfl
    rw [hx.1] at ho
    rw [hx.2]
    obtain ⟨f1, f2⟩ := Fine.of ho
    exact target_reports (expr_does hroot hm) hc hi (default_noExit hm e) f1 f2 hp
  unfold expandExpr at hp ⊢
  split
  · rename_i i as b
    dsimp only at hp ⊢
    by_cases hl : cx.visitLast = true
    · simp only [hl, if_true] at hp ⊢
      have hlm : (cx.lastMode == VisitLastMode.never) = false := by
        rw [hl] at hv; simpa using hv.symm
      rw [hlm] at ho ⊢
      simp only [ordinaryExpr, Bool.and_eq_true] at ho
      obtain ⟨f1, f2⟩ := Fine.of ho.2
      exact target_reports (cx := closureCx cx b) (closure_does hroot hl ho.1) hc
        (fun _ h => by
          have h : cx.lastMode = .never := h
          rw [h] at hlm; cases hlm) (ha _ _ _ rfl hl) f1 f2 hp
    · simp only [hl, if_false, Bool.false_eq_true] at hp ⊢
      exact plain (fun _ _ _ h => absurd h hl) hp
  · rename_i hne
    refine plain (fun i as b _ h => hne i as b h) ?_
    split at hp
    · exact absurd rfl (hne _ _ _)
    · exact hp

theorem body_reports {env : Env} {f : Nat} {J : Job} {cx : Cx} {k : Kind} {as asb : List Attr}
    {ss : List Node} (hJ : Does J cx) (hc : cx.errs = []) (hi : Inv cx)
    (hk : k.isOpaque = false) (ho : ordinaryBody J ss = true)
    (hp : (walk (visit env f .visitor {}) (childLast cx ss).1
      (.mk k as [.mk .block asb (childLast cx ss).2])).1.panics = []) :
    (walk (visit env f .visitor {}) (childLast cx ss).1
      (.mk k as [.mk .block asb (childLast cx ss).2])).1.errs =
      if lacksElseLast J ss then [.missingElse] else reportsL J ss := by
  unfold ordinaryBody at ho
  simp only [Bool.and_eq_true, Bool.not_eq_true'] at ho
  obtain ⟨⟨⟨⟨⟨h1, h2⟩, h3⟩, h4⟩, h5⟩, h6⟩ := ho
  have hs := childLast_same ss cx
  have hi1 := hi.same hs
  have hle : (childLast cx ss).1.errs = cx.errs ++
      if lacksElseLast J ss then [.missingElse] else [] := by
    refine childLast_lacks (Hs := fun _ => hits []) hJ h2 h4 (by rw [pendL_none]; rfl) ?_
    intro as2 e hm H t cx hF h
    have hge := grammatical_mk (grammaticalL_mem h4 hm) rfl
    have hfe := hasAttrL_mem h3 _ hm
    rw [hasAttr_mk, Bool.or_eq_false_iff] at hfe
    exact childExpr_lacks e H t cx hF (by simpa [kidsOk] using hge.1)
      (by simpa [Kind.isOpaque, NAME] using hfe.2) (by simpa [grammaticalL] using hge.2) h
  rw [hc, List.nil_append] at hle
  have hbody := body_pend hJ h2 h3 h4 h5
  simp only [walk, hk, Bool.false_eq_true, if_false, mapA] at hp ⊢
  by_cases hl : lacksElseLast J ss = true
  · rw [if_pos hl] at hle ⊢
    rw [(visit_skip env f {} _ _ (by rw [hle]; simp)).2, hle]
  · rw [if_neg hl] at hle ⊢
    cases f with
    | zero => simp [visit, Cx.panic] at hp
    | succ f =>
      simp only [visit, visitorStep, Node.kind, Kind.isExpr, Kind.isStmt, Bool.false_eq_true, if_false,
        walk, Kind.isOpaque] at hp ⊢
      have hp1 := mapA_panics (visit_good env f) _ _ hi1 hp
      exact mapA_tells (visit_tells env f) (w := {}) ss _ _ (fun _ => []) _ ⟨hle, hp1⟩ hi1
        ⟨hJ.same hs, rfl, rfl, rfl⟩ ⟨h3, h4, h5, h6⟩ hbody hp

theorem localAnalysis_errs {env : Env} {cx : Cx} {p : LetPat} :
    (localAnalysis env cx p).1.errs = cx.errs := by
  unfold localAnalysis
  split
  · split <;> rfl
  · rfl

theorem fnAnalysis_errs {env : Env} {cx : Cx} {ret : Option Ty} {b : Node} :
    (fnAnalysis env cx ret b).errs = cx.errs := by
  unfold fnAnalysis
  split
  · rfl
  · dsimp only; split <;> rfl

theorem reports_none (J : Job) : ∀ n, reports J n = [] ↔ ∀ x ∈ parts n, faulty J x = false := by
  intro n
  have list : ∀ ks : List Node, (∀ k ∈ ks, (reports J k = [] ↔ ∀ x ∈ parts k, faulty J x = false)) →
      (reportsL J ks = [] ↔ ∀ x ∈ partsL ks, faulty J x = false) := by
    intro ks
    induction ks with
    | nil => intro _; simp [reportsL, partsL]
    | cons a l ihl =>
      intro ih
      have h1 := ih a (by simp)
      have h2 := ihl fun k hk => ih k (by simp [hk])
      simp only [reportsL, partsL, List.mem_append]
      by_cases ha : reports J a = []
      · rw [ha, List.isEmpty_nil, if_pos rfl, h2]
        constructor
        · rintro h x (hx | hx)
          · exact h1.mp ha x hx
          · exact h x hx
        · exact fun h x hx => h x (.inr hx)
      · rw [if_neg (by simpa using ha)]
        exact ⟨fun h => absurd h ha, fun h => h1.mpr fun x hx => h x (.inl hx)⟩
  induction n using Node.ind with
  | _ k as ks ih =>
    have hl := list ks ih
    rw [reports, parts]
    by_cases hc : carries k = true
    · simp only [hc, if_true, List.append_eq_nil_iff, List.mem_cons, forall_eq_or_imp]
      have hf : faulty J (.mk k as ks) = false ↔
          nestedReports J (.mk k as ks) = [] ∧ lateReports J true k as ks = [] := by
        simp [faulty, hc]
      rw [hf]
      by_cases hn : nestedReports J (.mk k as ks) = []
      · by_cases ho : hidesCode k = true
        · simp [hn, ho]
        · simp only [Bool.not_eq_true] at ho
          simp only [hn, ho, List.isEmpty_nil, Bool.not_false, Bool.and_self, if_true, true_and,
            List.nil_append, Bool.false_eq_true, if_false]
          rw [← hl]
          constructor
          · rintro ⟨h1, h2⟩
            rw [h1] at h2
            exact ⟨h2, h1⟩
          · rintro ⟨h1, h2⟩
            rw [h2]
            exact ⟨rfl, h1⟩
      · simp [hn]
    · simp only [Bool.not_eq_true] at hc
      simp only [hc, Bool.false_eq_true, if_false, List.mem_cons, forall_eq_or_imp]
      have hf : faulty J (.mk k as ks) = false := by simp [faulty, hc]
      by_cases ho : hidesCode k = true
      · simp [ho, hf]
      · simp only [Bool.not_eq_true] at ho
        simp only [ho, Bool.false_eq_true, if_false, hl, hf, true_and]

/-- What is reported before the branches are counted. -/
theorem core_reports {env : Env} {f : Nat} {cx : Cx} {n : Node} (hroot : cx.root = true)
    (hf : Fresh cx) (hc : cx.errs = []) (ha : Active env cx n)
    (ho : ordinary cx.ident cx.marker n = true)
    (hp : (core env (visit env f) cx n).1.panics = []) :
    (core env (visit env f) cx n).1.errs = reportsInput cx.ident cx.marker n := by
  unfold ordinary at ho
  split at ho
  · rename_i semi as e
    simp only [core] at hp ⊢
    have hl : ((if semi then { cx with lastMode := .never } else cx).lastMode == .never) = semi := by
      cases semi
      · simp [hf.lastMode]
      · rfl
    have hk : Kept cx (if semi then { cx with lastMode := .never } else cx) := by
      cases semi <;> exact ⟨rfl, rfl, rfl, rfl, rfl, List.prefix_refl _⟩
    have h2 : (if semi then { cx with lastMode := .never } else cx).errs = [] := by
      cases semi <;> exact hc
    have h3 : (if semi then { cx with lastMode := .never } else cx).mode = .default := by
      cases semi <;> exact hf.mode
    generalize (if semi then { cx with lastMode := .never } else cx) = cx1 at *
    have := expandExpr_reports (hk.root.trans hroot) h3 h2 (.of_args (by rw [hk.args]; exact ha) e)
      (by rw [hl, hk.ident, hk.marker]; exact ho) hp
    rw [this, hl, hk.ident, hk.marker]
    cases semi
    · exact reportsExpr_start _ _ _
    · rfl
  · rename_i p as e els
    simp only [core] at hp ⊢
    obtain ⟨h1, h2, h3, h4, h5⟩ := localAnalysis_traits (env := env) hf p as (e :: els)
    have hk : Kept cx (localAnalysis env cx p).1 :=
      localAnalysis_kept (p1 := (localAnalysis env cx p).2) rfl
    have he := (localAnalysis_errs (env := env) (p := p)).trans hc
    simp only [Active] at ha
    generalize localAnalysis env cx p = r at *
    have hl : (r.1.lastMode == .never) = false := by rw [h5, hf.lastMode]; rfl
    have := expandExpr_reports (hk.root.trans hroot) (h4.trans hf.mode) he ha.2
      (by rw [hl, hk.ident, hk.marker]; exact ho) hp
    rw [this, hl, hk.ident, hk.marker]
    exact reportsExpr_start _ _ _
  · rename_i name ret as asb ss
    simp only [Bool.and_eq_true] at ho
    simp only [core] at hp ⊢
    have hd := fnAnalysis_does (env := env) (ret := ret) (b := .mk .block asb ss) hroot hf
      (by simpa [shaped] using ho.1)
    rw [body_reports hd (fnAnalysis_errs.trans hc)
      (fun _ h => by rw [fnAnalysis_lastMode, hf.lastMode] at h; cases h) rfl ho.2 hp, reports_body]
    rfl
  · simp only [Bool.and_eq_true] at ho
    have hco : core env (visit env f) cx n = expandExpr env (visit env f) cx n := by
      unfold core; split <;> first | rfl | simp [isExprNode, Node.kind] at ho
    have hti : reportsInput cx.ident cx.marker n = reportsExpr cx.ident cx.marker false n := by
      rw [reportsExpr_start]
      have h1 : targetOf n = n := by
        unfold targetOf; split <;> first | rfl | simp [isExprNode, Node.kind] at ho
      have h2 : entry n = bodyOf n := by
        unfold entry startOf; split <;> first | rw [h1] | simp [isExprNode, Node.kind] at ho
      have h3 : jobOf cx.ident cx.marker n = jobOfExpr cx.ident cx.marker n := by
        unfold jobOf; split <;> first | rw [h1] | simp [isExprNode, Node.kind] at ho
      unfold reportsInput
      rw [h2, h3]
    rw [hco] at hp ⊢
    have hl : (cx.lastMode == .never) = false := by rw [hf.lastMode]; rfl
    have ha : cx.args ≠ [] := by
      unfold Active at ha; split at ha <;> first | exact ha | simp [isExprNode, Node.kind] at ho
    have := expandExpr_reports hroot hf.mode hc (.of_args ha n) (by rw [hl]; exact ho.2) hp
    rw [this, hl, hti]

theorem core_lastMode {env : Env} {f : Nat} {cx : Cx} {n : Node} (hroot : cx.root = true)
    (hf : Fresh cx) (ha : Active env cx n) (ho : ordinary cx.ident cx.marker n = true)
    (hc : Clean (core env (visit env f) cx n).1) :
    (core env (visit env f) cx n).1.lastMode = tooFewMode n := by
  unfold ordinary at ho
  split at ho
  · rename_i semi as e
    simp only [core] at hc ⊢
    have hl : ((if semi then { cx with lastMode := .never } else cx).lastMode == .never) = semi := by
      cases semi
      · simp [hf.lastMode]
      · rfl
    have hk : Kept cx (if semi then { cx with lastMode := .never } else cx) := by
      cases semi <;> exact ⟨rfl, rfl, rfl, rfl, rfl, List.prefix_refl _⟩
    have h2 : (if semi then { cx with lastMode := .never } else cx).lastMode =
        tooFewMode (.mk (.sExpr semi) as [e]) := by
      cases semi
      · exact hf.lastMode
      · rfl
    have h3 : (if semi then { cx with lastMode := .never } else cx).mode = .default := by
      cases semi <;> exact hf.mode
    generalize (if semi then { cx with lastMode := .never } else cx) = cx1 at *
    exact (expandExpr_treats (visit_run env f) hc (hk.root.trans hroot) h3
      (.of_args (by rw [hk.args]; exact ha) e)
      (by rw [hl, hk.ident, hk.marker]; exact ho)).2.2.2.2.trans h2
  · rename_i p as e els
    simp only [core] at hc ⊢
    obtain ⟨h1, h2, h3, h4, h5⟩ := localAnalysis_traits (env := env) hf p as (e :: els)
    have hk : Kept cx (localAnalysis env cx p).1 :=
      localAnalysis_kept (p1 := (localAnalysis env cx p).2) rfl
    simp only [Active] at ha
    generalize localAnalysis env cx p = r at *
    have hl : (r.1.lastMode == .never) = false := by rw [h5, hf.lastMode]; rfl
    rw [(expandExpr_treats (visit_run env f) hc (hk.root.trans hroot) (h4.trans hf.mode) ha.2
      (by rw [hl, hk.ident, hk.marker]; exact ho)).2.2.2.2, h5, hf.lastMode]
    rfl
  · rename_i name ret as asb ss
    simp only [core]
    have hi : Inv (fnAnalysis env cx ret (.mk .block asb ss)) :=
      fun _ h => by rw [fnAnalysis_lastMode, hf.lastMode] at h; cases h
    have hs := childLast_same ss (fnAnalysis env cx ret (.mk .block asb ss))
    simp only [walk, Kind.isOpaque, Bool.false_eq_true, if_false, mapA]
    rw [((visit_good env f).tr .visitor {} _ _ (hi.same hs)).modes.2, hs.lastMode,
      fnAnalysis_lastMode, hf.lastMode]
    rfl
  · simp only [Bool.and_eq_true] at ho
    have hco : core env (visit env f) cx n = expandExpr env (visit env f) cx n := by
      unfold core; split <;> first | rfl | simp [isExprNode, Node.kind] at ho
    have hti : tooFewMode n = .default := by
      unfold tooFewMode; split <;> first | rfl | simp [isExprNode, Node.kind] at ho
    rw [hco] at hc ⊢
    have hl : (cx.lastMode == .never) = false := by rw [hf.lastMode]; rfl
    have ha : cx.args ≠ [] := by
      unfold Active at ha; split at ha <;> first | exact ha | simp [isExprNode, Node.kind] at ho
    rw [(expandExpr_treats (visit_run env f) hc hroot hf.mode (.of_args ha n)
      (by rw [hl]; exact ho.2)).2.2.2.2, hti, hf.lastMode]

end AutoEnums
