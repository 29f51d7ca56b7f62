import Verif.Lemmas.Whole
import Verif.Lemmas.Chain
import Verif.Spec.Reports

/-! # Lemmas: which errors are reported -/

namespace AutoEnums

open Spec

/-! ## The pass over the result expression -/

theorem wrapArm_noErr (cx : Cx) (n : Node) : (wrapArm cx n).1.errs = cx.errs := by
  unfold wrapArm
  split
  · rfl
  · split <;> rfl

theorem mapA_noErr {f : Cx → Node → Cx × Node} (hf : ∀ cx n, (f cx n).1.errs = cx.errs) :
    ∀ (l : List Node) (cx : Cx), (mapA f cx l).1.errs = cx.errs := by
  intro l
  induction l with
  | nil => intro cx; rfl
  | cons a l ih => intro cx; simp only [mapA]; rw [ih, hf]

theorem replaceBoxed_noErr (cx : Cx) (ks : List Node) : (cx.replaceBoxed ks).1.errs = cx.errs := by
  unfold Cx.replaceBoxed
  split
  · rfl
  · split <;> rfl

theorem loopVisitL_noErr_of {label : Option String} {nested : Bool} : ∀ (l : List Node) (cx : Cx),
    (∀ n ∈ l, ∀ cx nested, (loopVisit label nested cx n).1.errs = cx.errs) →
    (loopVisitL label nested cx l).1.errs = cx.errs := by
  intro l
  induction l with
  | nil => intro cx _; unfold loopVisitL; rfl
  | cons a l ih =>
    intro cx h
    unfold loopVisitL
    dsimp only
    rw [ih _ fun n hn => h n (by simp [hn]), h a (by simp)]

theorem loopVisit_noErr (label : Option String) : ∀ (n : Node) (cx : Cx) (nested : Bool),
    (loopVisit label nested cx n).1.errs = cx.errs := by
  intro n
  induction n using Node.ind with
  | h k as ks ih =>
    intro cx nested
    rw [loopVisit.eq_def]
    dsimp only
    repeat' split
    all_goals first
      | rfl
      | (dsimp only; rw [loopVisitL_noErr_of _ _ ih]; done)
      | (dsimp only; rw [replaceBoxed_noErr]; rw [loopVisitL_noErr_of _ _ ih]; done)
      | (dsimp only; rw [ih _ (by simp)]; done)

theorem visitIf_lacks {J : Job} : ∀ (o : Node) (H : Hit) (t : Node) (cx : Cx), o.kind = .eIf →
    grammatical o = true → Alike J.en t (pend J H .plain o) →
    (visitIf cx t).1.errs = cx.errs ++ if hasElse o then [] else [.missingElse] := by
  intro o
  induction o using Node.ind with
  | h k as ks ih =>
    intro H t cx hk hg h
    cases hk
    obtain ⟨hg1, hg2⟩ := grammatical_mk hg rfl
    rw [pend_plain] at h
    obtain ⟨tks, rfl, h2⟩ := h.rigid (by simp)
    simp only [kidsP, kidH, hidesCode, Bool.false_eq_true, if_false] at h2
    have hblk : ∀ {asb ss tb}, Alike J.en tb (pend J (thr H .eIf as) .plain (.mk .block asb ss)) →
        ∃ tss, tb = .mk .block asb tss := by
      intro asb ss tb hb
      rw [pend_plain] at hb
      obtain ⟨tss, rfl, _⟩ := hb.rigid (by simp)
      exact ⟨tss, rfl⟩
    obtain ⟨c, asb, ss, hks⟩ := kidsOk_if hg1
    rcases hks with rfl | ⟨l, as2, ss2, rfl⟩ | ⟨as2, ks2, rfl⟩
    · simp only [pendL] at h2
      obtain ⟨c', m, rfl, h3, h4⟩ := alikeL_inv h2
      obtain ⟨b', m', rfl, h5, h6⟩ := alikeL_inv h4
      cases alikeL_nil h6
      obtain ⟨tss, rfl⟩ := hblk h5
      have := (wrapBlock_root cx tss).2.2.2
      simp [visitIf, hasElse, Cx.error, this]
    · simp only [pendL] at h2
      obtain ⟨c', m, rfl, h3, h4⟩ := alikeL_inv h2
      obtain ⟨b', m', rfl, h5, h6⟩ := alikeL_inv h4
      obtain ⟨e', m2, rfl, h7, h8⟩ := alikeL_inv h6
      cases alikeL_nil h8
      obtain ⟨tss, rfl⟩ := hblk h5
      rw [pend_plain] at h7
      obtain ⟨tss2, rfl, h9⟩ := h7.rigid (by simp)
      unfold visitIf
      dsimp only [Node.kind, Node.kids, Node.rawAttrs]
      rw [(wrapBlock_root _ _).2.2.2, (wrapBlock_root _ _).2.2.2]
      simp [hasElse, Node.kind]
    · simp only [pendL] at h2
      obtain ⟨c', m, rfl, h3, h4⟩ := alikeL_inv h2
      obtain ⟨b', m', rfl, h5, h6⟩ := alikeL_inv h4
      obtain ⟨e', m2, rfl, h7, h8⟩ := alikeL_inv h6
      cases alikeL_nil h8
      obtain ⟨tss, rfl⟩ := hblk h5
      have hek : e'.kind = .eIf := by
        rw [pend_plain] at h7
        obtain ⟨tks2, rfl, h9⟩ := h7.rigid (by simp)
        rfl
      unfold visitIf
      dsimp only
      rw [hek]
      dsimp only
      rw [ih _ (by simp) _ _ _ rfl (grammaticalL_mem hg2 (by simp)) h7, (wrapBlock_root _ _).2.2.2]
      congr 1

theorem childLast_lacks {J : Job} {Hs : Nat → Hit} : ∀ {l tl : List Node} {cx : Cx}, Does J cx →
    (l.all fun n => isStatement n.kind) = true → grammaticalL l = true →
    AlikeL J.en tl (pendL J Hs (fun _ => .plain) l) →
    (∀ as e, .mk (.sExpr false) as [e] ∈ l → ∀ (H : Hit) t cx, Does J cx →
      Alike J.en t (pend J H .plain e) →
      (childExpr cx t).1.errs = cx.errs ++ if lacksElse J e then [.missingElse] else []) →
    (childLast cx tl).1.errs = cx.errs ++ if lacksElseLast J l then [.missingElse] else [] := by
  intro l
  induction l generalizing Hs with
  | nil => intro tl cx _ _ _ h _; rw [alikeL_nil h]; unfold childLast; simp [lacksElseLast]
  | cons s l ih =>
    intro tl cx hF hs hg h he
    obtain ⟨t, tl', rfl, h1, h2⟩ := alikeL_inv h
    cases l with
    | cons s2 l =>
      obtain ⟨t2, tl2, rfl, h3, h4⟩ := alikeL_inv h2
      have e1 : (childLast cx (t :: t2 :: tl2)).1 = (childLast cx (t2 :: tl2)).1 := by
        rw [childLast_cons]
      have e2 : lacksElseLast J (s :: s2 :: l) = lacksElseLast J (s2 :: l) := by
        rw [lacksElseLast]
      rw [e1, e2]
      exact ih (Hs := fun i => Hs (i + 1)) (cx := cx) hF (by simp at hs ⊢; exact hs.2)
          (by rw [grammaticalL, Bool.and_eq_true] at hg; exact hg.2) h2
          fun as e hm => he as e (by simp at hm ⊢; exact .inr hm)
    | nil =>
      cases alikeL_nil h2
      by_cases hk : ∃ as e, s = .mk (.sExpr false) as [e]
      · obtain ⟨as, e, rfl⟩ := hk
        rw [pend_plain] at h1
        obtain ⟨tks, rfl, h3⟩ := h1.rigid (by simp)
        simp only [kidsP, kidH, hidesCode, Bool.false_eq_true, if_false, pendL] at h3
        obtain ⟨e', m, rfl, h5, h6⟩ := alikeL_inv h3
        cases alikeL_nil h6
        have e2 : (childLast cx [.mk (.sExpr false) as [e']]).1 = (childExpr cx e').1 := by
          rw [childLast.eq_def]
        rw [e2, lacksElseLast]
        exact he as e (by simp) _ _ _ hF h5
      · have e4 : (childLast cx [t]).1 = cx := by
          rw [childLast.eq_def]
          split
          · contradiction
          · rename_i as e heq
            cases heq
            exfalso
            cases s with
            | mk k as2 ks =>
              rw [pend_plain] at h1
              obtain ⟨k', tks, h5, h6, h7⟩ := h1.inv
              cases h5
              have := blurK_rigid h6.symm (by simp)
              subst this
              simp only [kidsP, kidH, hidesCode, Bool.false_eq_true, if_false] at h7
              have hlen := h7.length
              rw [pendL_length] at hlen
              match ks, hlen with
              | [e], _ => exact hk ⟨_, _, rfl⟩
          · rename_i heq; cases heq; rfl
          · rename_i heq; simp at heq
        have e5 : lacksElseLast J [s] = false := by
          rw [lacksElseLast.eq_def]
          split
          · rfl
          · rename_i heq; cases heq; exact absurd ⟨_, _, rfl⟩ hk
          · rfl
          · rename_i heq; simp at heq
        rw [e4, e5]
        simp

theorem lacksElse_mk {J : Job} {k : Kind} {as : List Attr} {ks : List Node} :
    J.branches = true → diverges J.marker (.mk k as ks) = false → lacksElse J (.mk k as ks) =
    match k, ks with
    | .eBlock _, ks | .eUnsafe, ks => lacksElseLast J ks
    | .eMethodCall _, e :: _ => lacksElse J e
    | .eParen, [e] => lacksElse J e
    | .eIf, ks => !hasElse (.mk .eIf as ks)
    | _, _ => false := by
  intro h1 h2
  rw [lacksElse.eq_def]
  dsimp only
  rw [h1, h2]
  rfl

/-- The pass over the result expression reports a missing `else`, or nothing. -/
theorem childExpr_lacks {J : Job} : ∀ (o : Node) (H : Hit) (t : Node) (cx : Cx),
    Does J cx → isExprNode o = true → hasAttr NAME o = false → grammatical o = true →
    Alike J.en t (pend J H .plain o) →
    (childExpr cx t).1.errs = cx.errs ++ if lacksElse J o then [.missingElse] else [] := by
  intro o
  induction o using Node.strongInd with
  | h n ih =>
    intro H t cx hF he hf hg h
    cases n with
    | mk k as ks =>
    have hdiv := unreachable_eq hF.root (.mk k as ks) hf t ⟨H, h⟩
    rw [hF.marker] at hdiv
    by_cases hb : (!cx.visitLast || diverges J.marker (.mk k as ks)) = true
    · have hr : lacksElse J (.mk k as ks) = false := by
        rw [Bool.or_eq_true] at hb
        rw [lacksElse.eq_def]
        dsimp only
        rcases hb with hb | hb
        · have : J.branches = false := by rw [← hF.branches]; simpa using hb
          simp [this]
        · simp [hb]
      cases t with
      | mk k' as' tks =>
        obtain ⟨k2, tks2, heq, _⟩ := Raw.top ⟨H, h⟩
        cases heq
        rw [childExpr.eq_def]
        dsimp only
        rw [hdiv, if_pos hb, hr]
        simp
    have hJ : J.branches = true := by
      rw [← hF.branches]; simp at hb; exact hb.1
    have hnd : diverges J.marker (.mk k as ks) = false := by simp at hb; exact hb.2
    have hf0 := hf
    rw [hasAttr_mk, Bool.or_eq_false_iff] at hf
    by_cases hl : leads k = true
    rotate_left
    · have hl : leads k = false := by simpa using hl
      have hr : lacksElse J (.mk k as ks) = false := by
        rw [lacksElse.eq_def]
        dsimp only
        split <;> first | (simp [leads] at hl; done) | simp
      cases t with
      | mk k' as' tks =>
        obtain ⟨k2, tks2, heq, hk2⟩ := Raw.top ⟨H, h⟩
        cases heq
        have hl' : leads k' = false := by
          by_cases hp : ∃ p, k = .ePath false p
          · obtain ⟨p, rfl⟩ := hp
            obtain ⟨p', rfl, _⟩ := blurK_path hk2
            rfl
          · rw [blurK_rigid hk2 fun p e => hp ⟨p, e⟩]; exact hl
        rw [childExpr.eq_def]
        dsimp only
        rw [hdiv, if_neg hb, hr]
        split <;> first | (simp [leads] at hl'; done) | simp
    have hop : k.isOpaque = false := by cases k <;> first | rfl | (simp [leads] at hl; done)
    have hfk : hasAttrL NAME ks = false := by simpa [hop] using hf.2
    have hnb : ∀ l, k ≠ .eBreak l := by rintro l rfl; simp [leads] at hl
    obtain ⟨hg1, hg2⟩ := grammatical_mk hg (by rw [hidesCode_eq, hop])
    have h0 := h
    rw [pend_plain, kidsP_plain _ _ _ _ _ _ hnb, hidesCode_eq, hop] at h
    simp only [Bool.false_eq_true, if_false] at h
    obtain ⟨tks, rfl, h2⟩ := h.rigid (by rintro p rfl; simp [leads] at hl)
    have hstm : ∀ as2 e, .mk (.sExpr false) as2 [e] ∈ ks → 
        ∀ (H : Hit) t cx, Does J cx → Alike J.en t (pend J H .plain e) →
          (childExpr cx t).1.errs = cx.errs ++ if lacksElse J e then [.missingElse] else [] := by
      intro as2 e hm H t cx hF h
      have hge := grammatical_mk (grammaticalL_mem hg2 hm) rfl
      have hfe := hasAttrL_mem hfk _ hm
      rw [hasAttr_mk, Bool.or_eq_false_iff] at hfe
      have hsz : sizeOf e < sizeOf (Node.mk k as ks) :=
        Nat.lt_trans (Node.sizeOf_kid (by simp)) (Node.sizeOf_kid hm)
      exact ih e hsz H t cx hF (by simpa [kidsOk] using hge.1)
        (by simpa [Kind.isOpaque] using hfe.2) (by simpa [grammaticalL] using hge.2) h
    have hle := lacksElse_mk hJ hnd
    rw [childExpr.eq_def]
    dsimp only
    rw [hdiv, if_neg hb, hle]
    cases k <;> first | (simp [leads] at hl; done) | skip
    case eIf =>
      dsimp only
      rw [visitIf_lacks _ H _ _ rfl hg h0]
      simp only [Bool.not_eq_true']
      by_cases hx : hasElse (.mk .eIf as ks) = true <;> simp [hx]
    case eBlock l => exact childLast_lacks hF (by simpa [kidsOk] using hg1) hg2 h2 hstm
    case eUnsafe => exact childLast_lacks hF (by simpa [kidsOk] using hg1) hg2 h2 hstm
    case eMatch =>
      cases tks with
      | nil => simp
      | cons s arms => simpa using mapA_noErr wrapArm_noErr arms cx
    case eLoop l =>
      have := loopVisitL_noErr_of (label := l) (nested := false) tks cx
        fun n _ cx nested => loopVisit_noErr l n cx nested
      simpa using this
    case eMethodCall m =>
      cases ks with
      | nil => rw [alikeL_nil h2]; simp
      | cons e args =>
        simp only [pendL] at h2
        obtain ⟨e', m', rfl, h3, h4⟩ := alikeL_inv h2
        simp only [hasAttrL_cons, Bool.or_eq_false_iff] at hfk
        rw [grammaticalL, Bool.and_eq_true] at hg2
        simp only [kidsOk, List.all_cons, Bool.and_eq_true] at hg1
        exact ih e (Node.sizeOf_kid (by simp)) _ _ _ hF hg1.1 hfk.1 hg2.1 h3
    case eParen =>
      cases ks with
      | nil => simp [kidsOk] at hg1
      | cons e rest =>
        cases rest with
        | cons => simp [kidsOk] at hg1
        | nil =>
          simp only [pendL] at h2
          obtain ⟨e', m', rfl, h3, h4⟩ := alikeL_inv h2
          cases alikeL_nil h4
          simp only [hasAttrL_cons, Bool.or_eq_false_iff] at hfk
          rw [grammaticalL, Bool.and_eq_true] at hg2
          simp only [kidsOk] at hg1
          exact ih e (Node.sizeOf_kid (by simp)) _ _ _ hF hg1 hfk.1 hg2.1 h3
    case sExpr b => simp [isExprNode, Node.kind] at he

end AutoEnums
