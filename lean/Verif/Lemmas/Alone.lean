import Verif.Spec.Outside
import Verif.Lemmas.Inner
import Verif.Lemmas.Outside

/-! # An inner attribute works like an attribute of its own -/

namespace AutoEnums

open Spec

/-- The same context as part of a different nesting. -/
def Cx.recast (cx : Cx) (r : Bool) (l : List String) : Cx := { cx with root := r, markers := l }

section
variable {ms : List String} {o : String}

theorem apartL_iff {ks : List Node} : ApartL ms o ks ↔ ∀ c ∈ ks, Apart ms o c := by
  induction ks with
  | nil => simp [ApartL]
  | cons n ns ih => simp [ApartL, ih]

theorem apart_mk {k : Kind} {as : List Attr} {ks : List Node} : Apart ms o (.mk k as ks) ↔
    (∀ p t, k = .eMacro p t ∨ k = .sMacro p t → callsNone ms o p) ∧
      (∀ a ∈ as, declaresNone ms a) ∧ ∀ c ∈ ks, Apart ms o c := by
  rw [Apart, apartL_iff]

theorem Spec.Apart.kid {k : Kind} {as : List Attr} {ks : List Node} (h : Apart ms o (.mk k as ks)) {c : Node}
    (hc : c ∈ ks) : Apart ms o c := (apart_mk.1 h).2.2 c hc

theorem Spec.Apart.macro {p : Path} {t : String} {as : List Attr} {ks : List Node}
    (h : Apart ms o (.mk (.eMacro p t) as ks)) : callsNone ms o p := (apart_mk.1 h).1 _ _ (.inl rfl)

theorem Spec.Apart.stmt {p : Path} {t : String} {as : List Attr} {ks : List Node}
    (h : Apart ms o (.mk (.sMacro p t) as ks)) : callsNone ms o p := (apart_mk.1 h).1 _ _ (.inr rfl)

/-- The two contexts agree on markers. -/
def Concord (ms : List String) (o : String) (cx : Cx) (r : Bool) (l : List String) : Prop :=
  ∀ p, callsNone ms o p → (cx.recast r l).isMarker p = cx.isMarker p

theorem Concord.same {cx cx' : Cx} {r : Bool} {l : List String} (h : Concord ms o cx r l) (hs : Same cx cx') :
    Concord ms o cx' r l := by
  intro p hp
  have := h p hp
  rw [hs.isMarker, ← this]
  have : ∀ m m' : String, m = m' → (if p.isIdent m || r then p.isIdent m else l.any (p.isIdent ·)) =
      if p.isIdent m' || r then p.isIdent m' else l.any (p.isIdent ·) := fun _ _ h => h ▸ rfl
  exact this _ _ hs.marker

variable {r : Bool} {l : List String}

theorem Concord.expr {cx : Cx} (h : Concord ms o cx r l) {e : Node} (he : Apart ms o e) :
    (cx.recast r l).isMarkerExpr e = cx.isMarkerExpr e := by
  unfold Cx.isMarkerExpr
  split
  · exact h _ he.macro
  · rfl

theorem isUnreachable_recast {cx : Cx} (h : Concord ms o cx r l) :
    ∀ n, Apart ms o n → isUnreachable (cx.recast r l) n = isUnreachable cx n := by
  have hmac : ∀ p, callsNone ms o p → isUnreachableMacro (cx.recast r l) p = isUnreachableMacro cx p :=
    fun p hp => by simp only [isUnreachableMacro, h p hp]
  apply Node.strongInd
  intro n ih
  obtain ⟨k, as, ks⟩ := n
  intro hn
  have hlast : ∀ l' : List Node, sizeOf l' ≤ sizeOf ks → (∀ c ∈ l', Apart ms o c) →
      isUnreachableLast (cx.recast r l) l' = isUnreachableLast cx l' := by
    intro l'
    induction l' with
    | nil => intro _ _; rfl
    | cons s l' ihl =>
      intro hsz hap
      cases l' with
      | nil =>
        have hs := hap s (by simp)
        obtain ⟨k', as', ks'⟩ := s
        have hk : ∀ c ∈ ks', isUnreachable (cx.recast r l) c = isUnreachable cx c := by
          intro c hc
          have h1 := List.sizeOf_lt_of_mem hc
          exact ih c (by simp at hsz ⊢; omega) (hs.kid hc)
        unfold isUnreachableLast
        split
        · rename_i heq; cases heq
        · rename_i heq; cases heq; exact hk _ (by simp)
        · rename_i heq; cases heq; exact hk _ (by simp)
        · rfl
        · rename_i heq; cases heq; exact hmac _ hs.stmt
        · rfl
        · rename_i heq; cases heq
      | cons t l' =>
        rw [isUnreachableLast, isUnreachableLast]
        exact ihl (by simp at hsz ⊢; omega) (fun c hc => hap c (List.mem_cons_of_mem _ hc))
  have harms : ∀ l' : List Node, sizeOf l' ≤ sizeOf ks → (∀ c ∈ l', Apart ms o c) →
      isUnreachableArms (cx.recast r l) l' = isUnreachableArms cx l' := by
    intro l'
    induction l' with
    | nil => intro _ _; rfl
    | cons s l' ihl =>
      intro hsz hap
      have hs := hap s (by simp)
      have ihl' := ihl (by simp at hsz ⊢; omega) (fun c hc => hap c (by simp [hc]))
      obtain ⟨k', as', ks'⟩ := s
      have hk : ∀ c ∈ ks', isUnreachable (cx.recast r l) c = isUnreachable cx c := by
        intro c hc
        have h1 := List.sizeOf_lt_of_mem hc
        exact ih c (by simp at hsz ⊢; omega) (hs.kid hc)
      unfold isUnreachableArms
      split
      · rename_i heq; cases heq
      · rename_i heq; cases heq; rw [hk _ (by simp), ihl']
      · rename_i heq; cases heq; rw [hk _ (by simp), ihl']
      · rfl
  have hk : ∀ c ∈ ks, isUnreachable (cx.recast r l) c = isUnreachable cx c :=
    fun c hc => ih c (Node.sizeOf_kid hc) (hn.kid hc)
  unfold isUnreachable
  congr 1
  split
  · exact hlast _ (Nat.le_refl _) (fun c hc => hn.kid hc)
  · exact hlast _ (Nat.le_refl _) (fun c hc => hn.kid hc)
  · rfl
  · rfl
  · rfl
  · exact hmac _ hn.macro
  · exact harms _ (by simp) (fun c hc => hn.kid (by simp [hc]))
  · rfl
  · exact hk _ (by simp)
  · exact hk _ (by simp)
  · rfl

theorem isUnreachableLast_recast {cx : Cx} (h : Concord ms o cx r l) (ss : List Node)
    (hs : ∀ c ∈ ss, Apart ms o c) :
    isUnreachableLast (cx.recast r l) ss = isUnreachableLast cx ss := by
  have hn : Apart ms o (.mk (.eBlock none) [] ss) := apart_mk.2 ⟨by simp, by simp, hs⟩
  simpa [isUnreachable, Kind.hasAttrs, anyEmptyAttr, anyAttr] using isUnreachable_recast h _ hn

/-- The result with another context. -/
def rc {α : Type} (r : Bool) (l : List String) (x : Cx × α) : Cx × α := (x.1.recast r l, x.2)

theorem skipArm_recast {cx : Cx} (h : Concord ms o cx r l) {n : Node} (hn : Apart ms o n) :
    skipArm (cx.recast r l) n = skipArm cx n := by
  obtain ⟨k, as, ks⟩ := n
  unfold skipArm
  dsimp only
  split
  · rename_i b hb
    have : b ∈ ks := by
      unfold armBody at hb
      split at hb <;> cases hb <;> simp
    simp only [isUnreachable_recast h b (hn.kid this)]
  · rfl

theorem wrapArm_recast {cx : Cx} (h : Concord ms o cx r l) {n : Node} (hn : Apart ms o n) :
    wrapArm (cx.recast r l) n = rc r l (wrapArm cx n) := by
  unfold wrapArm
  rw [skipArm_recast h hn]
  split
  · rfl
  · split <;> rfl

theorem skipBlock_recast {cx : Cx} (h : Concord ms o cx r l) {ss : List Node} (hs : ∀ c ∈ ss, Apart ms o c) :
    skipBlock (cx.recast r l) ss = skipBlock cx ss := by
  unfold skipBlock
  split
  · rename_i e he
    rw [isUnreachable_recast h e ((hs _ (List.mem_of_getLast? he)).kid (by simp))]
  · exact isUnreachableLast_recast h ss hs

theorem wrapBlock_recast {cx : Cx} (h : Concord ms o cx r l) {ss : List Node} (hs : ∀ c ∈ ss, Apart ms o c) :
    wrapBlock (cx.recast r l) ss = rc r l (wrapBlock cx ss) := by
  unfold wrapBlock
  rw [skipBlock_recast h hs]
  split <;> rfl

theorem visitIf_recast : ∀ (n : Node) (cx : Cx), Concord ms o cx r l → Apart ms o n →
    visitIf (cx.recast r l) n = rc r l (visitIf cx n) := by
  intro n
  induction n using Node.strongInd with
  | h n ih =>
    intro cx h hn
    rw [visitIf.eq_def, visitIf.eq_def]
    split
    · rename_i as c asb ss
      have hb : Apart ms o (.mk .block asb ss) := hn.kid (by simp)
      dsimp only
      rw [wrapBlock_recast h (fun c hc => hb.kid hc)]
      rfl
    · rename_i as c asb ss e
      have hb : Apart ms o (.mk .block asb ss) := hn.kid (by simp)
      have he : Apart ms o e := hn.kid (by simp)
      dsimp only
      rw [wrapBlock_recast h (fun c hc => hb.kid hc)]
      have h1 := h.same (wrapBlock_same cx ss)
      split
      · rename_i lb hk
        have hks : ∀ c ∈ e.kids, Apart ms o c := fun c hc => by
          obtain ⟨k', as', ks'⟩ := e; exact he.kid hc
        simp only [rc]
        rw [wrapBlock_recast h1 hks]
        rfl
      · simp only [rc]
        rw [ih e (Node.sizeOf_kid (by simp)) _ h1 he]
        rfl
      · rfl
    · rfl

theorem replaceBoxed_recast {cx : Cx} (h : Concord ms o cx r l) {ks : List Node} (hs : ∀ c ∈ ks, Apart ms o c) :
    (cx.recast r l).replaceBoxed ks = rc r l (cx.replaceBoxed ks) := by
  unfold Cx.replaceBoxed
  split
  · rfl
  · rw [h.expr (hs _ (by simp))]
    split <;> rfl

theorem loopVisit_recast (label : Option String) : ∀ (n : Node) (nested : Bool) (cx : Cx), Concord ms o cx r l →
    Apart ms o n → loopVisit label nested (cx.recast r l) n = rc r l (loopVisit label nested cx n) := by
  intro n
  induction n using Node.ind with
  | h k as ks ih =>
    intro nested cx h hn
    have hl : ∀ (nested : Bool) (ns : List Node) (cx : Cx), (∀ c ∈ ns, c ∈ ks) → Concord ms o cx r l →
        loopVisitL label nested (cx.recast r l) ns = rc r l (loopVisitL label nested cx ns) := by
      intro nested ns
      induction ns with
      | nil => intro cx _ _; rfl
      | cons a ns ihl =>
        intro cx hm h
        simp only [loopVisitL]
        rw [ih a (hm a (by simp)) nested cx h (hn.kid (hm a (by simp)))]
        simp only [rc]
        rw [ihl _ (fun c hc => hm c (by simp [hc])) (h.same (loopVisit_kept label a nested cx))]
        rfl
    have hl' := fun nested => hl nested ks cx (fun _ h => h) h
    rw [loopVisit.eq_def, loopVisit.eq_def]
    dsimp only
    split
    · rfl
    · split
      · rfl
      · rfl
      · split
        · rfl
        · rw [hl']; rfl
      · split
        · rfl
        · rw [hl']; rfl
      · split
        · rfl
        · rw [hl']; rfl
      · split
        · split
          · rfl
          · rename_i e rest
            rw [h.expr (hn.kid (by simp))]
            split
            · rfl
            · have := ih e (by simp) nested { cx with variants := cx.variants ++ [variantIdent cx.variants.length] }
                (h.same (Same.next cx [] e)) (hn.kid (by simp))
              have e1 : ({ cx.recast r l with variants := (cx.recast r l).variants ++
                  [variantIdent (cx.recast r l).variants.length] } : Cx) =
                  Cx.recast { cx with variants := cx.variants ++ [variantIdent cx.variants.length] } r l := rfl
              rw [e1, this]
              rfl
        · rw [hl']; rfl
      · rw [hl']; rfl

theorem loopVisitL_recast (label : Option String) (nested : Bool) : ∀ (ns : List Node) (cx : Cx),
    Concord ms o cx r l → (∀ c ∈ ns, Apart ms o c) →
    loopVisitL label nested (cx.recast r l) ns = rc r l (loopVisitL label nested cx ns) := by
  intro ns
  induction ns with
  | nil => intro cx _ _; rfl
  | cons a ns ihl =>
    intro cx h hm
    simp only [loopVisitL]
    rw [loopVisit_recast label a nested cx h (hm a (by simp))]
    simp only [rc]
    rw [ihl _ (h.same (loopVisit_kept label a nested cx)) (fun c hc => hm c (by simp [hc]))]
    rfl

theorem mapA_recast {f g : Cx → Node → Cx × Node} (hf : ∀ cx n, Same cx (f cx n).1) 
    (hg : ∀ cx n, Concord ms o cx r l → Apart ms o n → g (cx.recast r l) n = rc r l (f cx n)) :
    ∀ (ns : List Node) (cx : Cx), Concord ms o cx r l → (∀ c ∈ ns, Apart ms o c) →
      mapA g (cx.recast r l) ns = rc r l (mapA f cx ns) := by
  intro ns
  induction ns with
  | nil => intro cx _ _; rfl
  | cons a ns ihl =>
    intro cx h hm
    simp only [mapA]
    rw [hg cx a h (hm a (by simp))]
    simp only [rc]
    rw [ihl _ (h.same (hf cx a)) (fun c hc => hm c (by simp [hc]))]
    rfl

theorem childExpr_recast : ∀ (n : Node) (cx : Cx), Concord ms o cx r l → Apart ms o n →
    childExpr (cx.recast r l) n = rc r l (childExpr cx n) := by
  intro n
  induction n using Node.strongInd with
  | h n ih =>
    intro cx h hn
    obtain ⟨k, as, ks⟩ := n
    have hlast : ∀ ss : List Node, sizeOf ss ≤ sizeOf ks → (∀ c ∈ ss, Apart ms o c) →
        childLast (cx.recast r l) ss = rc r l (childLast cx ss) := by
      intro ss
      induction ss with
      | nil => intro _ _; rfl
      | cons s ss ihs =>
        intro hsz hap
        rw [childLast.eq_def, childLast.eq_def]
        dsimp only
        split
        · contradiction
        · rename_i as' e heq
          obtain ⟨rfl, rfl⟩ := List.cons.inj heq
          have hs0 : Apart ms o (.mk (.sExpr false) as' [e]) := hap _ (by simp)
          rw [ih e (by simp at hsz ⊢; omega) cx h (hs0.kid (by simp))]
          rfl
        · rfl
        · rename_i s' t ss' heq
          obtain ⟨rfl, rfl⟩ := List.cons.inj heq
          rw [ihs (by simp at hsz ⊢; omega) (fun c hc => hap c (List.mem_cons_of_mem _ hc))]
          rfl
    have hv : (cx.recast r l).visitLast = cx.visitLast := rfl
    rw [childExpr.eq_def, childExpr.eq_def]
    dsimp only
    rw [hv, isUnreachable_recast h _ hn]
    split
    · rfl
    · split
      · rw [hlast _ (Nat.le_refl _) (fun c hc => hn.kid hc)]; rfl
      · rw [hlast _ (Nat.le_refl _) (fun c hc => hn.kid hc)]; rfl
      · rw [mapA_recast wrapArm_same (fun cx n h hn => wrapArm_recast h hn) _ _ h
          (fun c hc => hn.kid (by simp [hc]))]
        rfl
      · exact visitIf_recast _ _ h hn
      · rw [loopVisitL_recast _ _ _ _ h (fun c hc => hn.kid hc)]; rfl
      · rw [ih _ (Node.sizeOf_kid (by simp)) cx h (hn.kid (by simp))]; rfl
      · rw [ih _ (Node.sizeOf_kid (by simp)) cx h (hn.kid (by simp))]; rfl
      · rfl

theorem childLast_recast {cx : Cx} (h : Concord ms o cx r l) (ss : List Node) (hs : ∀ c ∈ ss, Apart ms o c) :
    childLast (cx.recast r l) ss = rc r l (childLast cx ss) := by
  induction ss with
  | nil => rfl
  | cons s ss ihs =>
    rw [childLast.eq_def, childLast.eq_def]
    dsimp only
    split
    · contradiction
    · rename_i as' e heq
      obtain ⟨rfl, rfl⟩ := List.cons.inj heq
      have hs0 : Apart ms o (.mk (.sExpr false) as' [e]) := hs _ (by simp)
      rw [childExpr_recast e cx h (hs0.kid (by simp))]
      rfl
    · rfl
    · rename_i s' t ss' heq
      obtain ⟨rfl, rfl⟩ := List.cons.inj heq
      rw [ihs (fun c hc => hs c (List.mem_cons_of_mem _ hc))]
      rfl

theorem fnCount_recast {cx : Cx} (h : Concord ms o cx r l) : ∀ (n : Node) (cl : Bool), Apart ms o n →
    fnCount (cx.recast r l) cl n = fnCount cx cl n := by
  intro n
  induction n using Node.ind with
  | h k as ks ih =>
    intro cl hn
    have hl : ∀ (cl : Bool) (ns : List Node), (∀ c ∈ ns, c ∈ ks) →
        fnCountL (cx.recast r l) cl ns = fnCountL cx cl ns := by
      intro cl ns
      induction ns with
      | nil => intro _; rfl
      | cons a ns ihl =>
        intro hm
        simp only [fnCountL]
        rw [ih a (hm a (by simp)) cl (hn.kid (hm a (by simp))), ihl (fun c hc => hm c (by simp [hc]))]
    have hh : ∀ cl, fnCountHere (cx.recast r l) cl as k ks = fnCountHere cx cl as k ks := by
      intro cl
      unfold fnCountHere
      split
      · rw [h.expr (hn.kid (by simp))]
      · rfl
      · rw [h.expr (hn.kid (by simp))]
      · rfl
    rw [fnCount, fnCount]
    rw [hh, hl _ ks (fun _ h => h)]

theorem visitFn_recast {cx : Cx} (h : Concord ms o cx r l) {n : Node} (hn : Apart ms o n) :
    visitFn (cx.recast r l) n = visitFn cx n := fnCount_recast h n false hn

theorem visitMode_recast {cx : Cx} (h : Concord ms o cx r l) (sc : Scope) {n : Node} (hn : Apart ms o n) :
    visitMode sc (cx.recast r l) n = rc r l (visitMode sc cx n) := by
  unfold visitMode
  have : (cx.recast r l).mode = cx.mode := rfl
  rw [this]
  split
  · unfold visitReturn
    split
    · split
      · rw [replaceBoxed_recast h (fun c hc => hn.kid hc)]; rfl
      · rfl
    · rfl
  · unfold visitTry
    split
    · split
      · rw [h.expr (hn.kid (by simp))]
        split <;> rfl
      · rfl
    · rfl
  · rfl

theorem assert_recast (cx : Cx) (b : Bool) (p : Panic) :
    (cx.recast r l).assert b p = (cx.assert b p).recast r l := by
  unfold Cx.assert; split <;> rfl

theorem visitMarker_recast (cx : Cx) (sc : Scope) (n : Node) :
    visitMarker sc (cx.recast r l) n = rc r l (visitMarker sc cx n) := by
  unfold visitMarker
  have : (cx.recast r l).marker = cx.marker := rfl
  rw [this, assert_recast]
  generalize cx.assert _ _ = cx
  dsimp only
  have e1 : (cx.recast r l).isMarkerExact = cx.isMarkerExact := rfl
  have e2 : (cx.recast r l).hasError = cx.hasError := rfl
  rw [e1, e2]
  split
  · split
    · split
      · split <;> rfl
      · rfl
    · rfl
  · rfl

theorem findRemoveAttrs_recast (cx : Cx) (sc : Scope) (n : Node) :
    findRemoveAttrs sc (cx.recast r l) n = rc r l (findRemoveAttrs sc cx n) := by
  unfold findRemoveAttrs
  split
  · rfl
  · cases h1 : n.findRemoveAttr NEVER with
    | none =>
      dsimp only
      split <;> rfl
    | some x =>
      obtain ⟨a, n1⟩ := x
      dsimp only
      cases h2 : n1.findRemoveAttr "rec" with
      | none => dsimp only; split <;> rfl
      | some y => dsimp only; split <;> rfl

theorem visitNested_recast {cx : Cx} (h : Concord ms o cx r l) (sc : Scope) {n : Node} (hn : Apart ms o n)
    (a : Attr) : visitNested sc (cx.recast r l) n a = rc r l (visitNested sc cx n a) := by
  unfold visitNested
  rw [assert_recast]
  dsimp only
  split
  · exact childExpr_recast _ _ (h.same (Same.assert _ _ _)) hn
  · rfl

theorem collect_recast (cx : Cx) (ty : Ty) : (cx.recast r l).collectImplTrait ty = rc r l (cx.collectImplTrait ty) := by
  rfl

theorem localAnalysis_recast (env : Env) (cx : Cx) (p : LetPat) :
    localAnalysis env (cx.recast r l) p = rc r l (localAnalysis env cx p) := by
  unfold localAnalysis
  split
  · split <;> rfl
  · rfl

theorem build_recast (cx : Cx) : (cx.recast r l).build = rc r l cx.build := by
  unfold Cx.build
  have e2 : (cx.recast r l).hasError = cx.hasError := rfl
  have e1 : (cx.recast r l).variants = cx.variants := rfl
  have e3 : (cx.recast r l).hasChild = cx.hasChild := rfl
  rw [e1, e2, e3]
  split
  · rfl
  · split
    · rfl
    · split <;> rfl

end

end AutoEnums
