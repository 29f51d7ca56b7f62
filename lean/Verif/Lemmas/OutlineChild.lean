import Verif.Lemmas.Outline

/-! # Cutting out inner attributes: branch analysis -/

namespace AutoEnums

open Spec

variable {en : Ident}

theorem Twin.of_same {a b : Cx} (h : Same a b) (h1 : b.errs = a.errs) (h2 : b.panics = a.panics) :
    Twin b a := by
  unfold Twin Cx.forget
  simp only [Cx.mk.injEq]
  exact ⟨h.ident, trivial, h.marker, h.markers, h.root, trivial, h.mode, h.lastMode, h1, h.args, h.traits,
    h2, trivial⟩

theorem blurK_ctor (v v' : Ident) :
    blurK en (.ePath false (Path.ofIdents [en, v])) = blurK en (.ePath false (Path.ofIdents [en, v'])) := by
  simp [blurK, Path.ofIdents]

theorem cut_call {n s : Node} (h : Cut en n s) {as : List Attr} (hn : anyAttr as NAME = false)
    {i j v v' : Ident} (hi : i = en) (hj : j = en) :
    Cut en (exprCall as (Path.ofIdents [i, v]) n) (exprCall as (Path.ofIdents [j, v']) s) := by
  subst hi hj
  exact .node rfl rfl hn (by simp [KidKinds]) (.cons (.node rfl (blurK_ctor v v') rfl (by simp [KidKinds]) .nil) (.cons h .nil))

theorem cut_unit : Cut en unitE unitE := .node rfl rfl rfl (by simp [KidKinds]) .nil

theorem loopVisit_mk (label : Option String) (nested : Bool) (cx : Cx) (k : Kind) (as : List Attr)
    (ks : List Node) : ∃ ks', (loopVisit label nested cx (.mk k as ks)).2 = .mk k as ks' := by
  unfold loopVisit
  split
  · exact ⟨_, rfl⟩
  · split <;> (try split) <;> (try split) <;> (try split) <;> exact ⟨_, rfl⟩

theorem loopVisit_twin (label : Option String) (nested : Bool) (cx : Cx) (n : Node) :
    Twin (loopVisit label nested cx n).1 cx :=
  .of_same (loopVisit_kept label n nested cx) (loopVisit_same label n nested cx).1
    (loopVisit_same label n nested cx).2

theorem loopVisit_kind (label : Option String) (nested : Bool) (cx : Cx) (n : Node) :
    (loopVisit label nested cx n).2.kind = n.kind := by
  obtain ⟨k, as, ks⟩ := n
  obtain ⟨ks', h⟩ := loopVisit_mk label nested cx k as ks
  rw [h]; rfl

theorem loopVisitL_kinds (label : Option String) (nested : Bool) : ∀ (l : List Node) (cx : Cx),
    (loopVisitL label nested cx l).2.map Node.kind = l.map Node.kind := by
  intro l
  induction l with
  | nil => intro cx; rfl
  | cons n l ih => intro cx; simp [loopVisitL, ih, loopVisit_kind]

theorem loopVisit_cut (label : Option String) : ∀ (s n : Node) (nested : Bool) (a c : Cx), Twin a c →
    c.ident = en → Cut en n s →
    Cut en (loopVisit label nested a n).2 (loopVisit label nested c s).2 ∧
      Twin (loopVisit label nested a n).1 (loopVisit label nested c s).1 := by
  intro s
  induction s using Node.ind with
  | h k as ks ih =>
  have hl : ∀ (b nested : Bool) (ss ns : List Node) (a c : Cx), (∀ x ∈ ss, x ∈ ks) → Twin a c →
      c.ident = en → CutL en b ns ss →
      CutL en b (loopVisitL label nested a ns).2 (loopVisitL label nested c ss).2 ∧
        Twin (loopVisitL label nested a ns).1 (loopVisitL label nested c ss).1 := by
    intro b nested ss
    induction ss with
    | nil => intro ns a c _ ht _ h; cases h; exact ⟨.nil, ht⟩
    | cons s ss ih2 =>
      intro ns a c hx ht hi h
      cases h with
      | cons h1 h2 =>
        obtain ⟨g1, g2⟩ := ih s (hx _ (by simp)) _ nested a c ht hi h1
        have hi' : (loopVisit label nested c s).1.ident = en := by
          rw [(loopVisit_kept label s nested c).ident]; exact hi
        obtain ⟨g3, g4⟩ := ih2 _ _ _ (fun x hx' => hx _ (by simp [hx'])) g2 hi' h2
        exact ⟨.cons g1 g3, g4⟩
      | @letHole as ss ns p ks h1 h2 h3 =>
        have e1 : loopVisit label nested c letHole = (c, letHole) := by
          simp [loopVisit, loopVisitL, letHole, Kind.isOpaque, Kind.isExpr]
        obtain ⟨ks', hk⟩ := loopVisit_mk label nested a (.sLocal p) as ks
        have ht' := Twin.left ht (loopVisit_twin label nested a (.mk (.sLocal p) as ks))
        obtain ⟨g3, g4⟩ := ih2 _ _ _ (fun x hx' => hx _ (by simp [hx'])) ht' hi h3
        simp only [loopVisitL, e1, hk]
        refine ⟨.letHole h1 ?_ g3, g4⟩
        intro he
        have := congrArg List.length (loopVisitL_kinds label nested ss c)
        rw [he] at this
        simp only [List.length_map, List.length_nil] at this
        exact h2 (List.eq_nil_of_length_eq_zero this.symm)
  intro n nested a c ht hi h
  cases h with
  | @hole k as ks h =>
    have e1 : loopVisit label nested c hole = (c, hole) := by
      simp [loopVisit, loopVisitL, hole, Kind.isOpaque, anyEmptyAttr]
    obtain ⟨ks', hk⟩ := loopVisit_mk label nested a k as ks
    have e2 : loopVisit label nested c (.mk (.eContinue (some "")) [] []) = (c, hole) := e1
    rw [e2, hk]
    exact ⟨.hole h, Twin.left ht (loopVisit_twin label nested a _)⟩
  | inert ho hn =>
    rw [loopVisit.eq_def, loopVisit.eq_def]
    dsimp only
    rw [ho]
    exact ⟨.inert ho hn, ht⟩
  | @node k k' as ks ks' ho hb hn he hl' =>
    have ho' : k'.isOpaque = false := by rw [isOpaque_blur hb]; exact ho
    have hx := isExpr_blur hb
    rw [loopVisit.eq_def, loopVisit.eq_def]
    dsimp only
    rw [ho, ho', hx]
    split
    · exact ⟨.node ho hb hn he hl', ht⟩
    · have gen : ∀ nested, Cut en (.mk k' as (loopVisitL label nested a ks').2)
          (.mk k as (loopVisitL label nested c ks).2) ∧
          Twin (loopVisitL label nested a ks').1 (loopVisitL label nested c ks).1 := by
        intro nested
        obtain ⟨g1, g2⟩ := hl _ nested _ _ _ _ (fun _ h => h) ht hi hl'
        refine ⟨.node ho hb hn ?_ g1, g2⟩
        exact he.congr (loopVisitL_kinds _ _ _ _)
      by_cases hp : ∃ p, k = .ePath false p
      · obtain ⟨p, rfl⟩ := hp
        obtain ⟨p', rfl, h1⟩ := blurK_path hb
        exact gen nested
      · have := blurK_rigid hb fun p he => hp ⟨p, he⟩
        subst this
        have loop : Cut en (if label.isNone = true then (a, Node.mk k' as ks') else
              ((loopVisitL label true a ks').1, .mk k' as (loopVisitL label true a ks').2)).2
            (if label.isNone = true then (c, Node.mk k' as ks) else
              ((loopVisitL label true c ks).1, .mk k' as (loopVisitL label true c ks).2)).2 ∧
            Twin (if label.isNone = true then (a, Node.mk k' as ks') else
              ((loopVisitL label true a ks').1, .mk k' as (loopVisitL label true a ks').2)).1
            (if label.isNone = true then (c, Node.mk k' as ks) else
              ((loopVisitL label true c ks).1, .mk k' as (loopVisitL label true c ks).2)).1 := by
          split
          · exact ⟨.node ho hb hn he hl', ht⟩
          · exact gen true
        cases k' with
        | eClosure => exact ⟨.node ho hb hn he hl', ht⟩
        | eAsync => exact ⟨.node ho hb hn he hl', ht⟩
        | eLoop => exact loop
        | eForLoop => exact loop
        | eWhile => exact loop
        | eBreak l =>
          dsimp only
          split
          · cases ks with
            | nil =>
              cases hl'
              exact ⟨.node rfl rfl hn (by simp [KidKinds]) (.cons (cut_call cut_unit rfl (ht.ident.trans hi) hi) .nil), ht⟩
            | cons e ks =>
              obtain ⟨m, ms, rfl, h1, h2⟩ := cutL_false hl'
              dsimp only
              rw [isMarkerExpr_cut ht h1]
              split
              · exact ⟨.node ho hb hn he hl', ht⟩
              · obtain ⟨g1, g2⟩ := ih e (by simp) _ nested
                  { a with variants := a.variants ++ [variantIdent a.variants.length] }
                  { c with variants := c.variants ++ [variantIdent c.variants.length] } ht hi h1
                exact ⟨.node rfl rfl hn (by simp [KidKinds]) (.cons (cut_call g1 rfl (ht.ident.trans hi) hi) h2), g2⟩
          · exact gen nested
        | _ => exact gen nested

theorem loopVisitL_cut (label : Option String) {b : Bool} {ns ss : List Node} {nested : Bool} {a c : Cx}
    (ht : Twin a c) (hi : c.ident = en) (h : CutL en b ns ss) :
    CutL en b (loopVisitL label nested a ns).2 (loopVisitL label nested c ss).2 ∧
      Twin (loopVisitL label nested a ns).1 (loopVisitL label nested c ss).1 := by
  induction ss generalizing ns a c with
  | nil => cases h; exact ⟨.nil, ht⟩
  | cons s ss ih =>
    cases h with
    | cons h1 h2 =>
      obtain ⟨g1, g2⟩ := loopVisit_cut label s _ nested a c ht hi h1
      have hi' : (loopVisit label nested c s).1.ident = en := by
        rw [(loopVisit_kept label s nested c).ident]; exact hi
      obtain ⟨g3, g4⟩ := ih g2 hi' h2
      exact ⟨.cons g1 g3, g4⟩
    | @letHole as ss ns p ks h1 h2 h3 =>
      have e1 : loopVisit label nested c letHole = (c, letHole) := by
        simp [loopVisit, loopVisitL, letHole, Kind.isOpaque, Kind.isExpr]
      obtain ⟨ks', hk⟩ := loopVisit_mk label nested a (.sLocal p) as ks
      have ht' := Twin.left ht (loopVisit_twin label nested a (.mk (.sLocal p) as ks))
      obtain ⟨g3, g4⟩ := ih ht' hi h3
      simp only [loopVisitL, e1, hk]
      refine ⟨.letHole h1 ?_ g3, g4⟩
      intro he
      have := congrArg List.length (loopVisitL_kinds label nested ss c)
      rw [he] at this
      simp only [List.length_map, List.length_nil] at this
      exact h2 (List.eq_nil_of_length_eq_zero this.symm)

theorem apart_noKid {k : Kind} {as : List Attr} (h : apart k as = true) : ∀ p, k ≠ .arm p := by
  rintro p rfl
  have := (apart_facts h).1
  cases this

theorem armBody_cut {ns ss : List Node} (h : CutL en false ns ss) :
    (armBody ns = none ∧ armBody ss = none) ∨
      ∃ n s, armBody ns = some n ∧ armBody ss = some s ∧ Cut en n s := by
  cases ss with
  | nil => cases h; exact .inl ⟨rfl, rfl⟩
  | cons s ss =>
    obtain ⟨n, ns, rfl, h1, h2⟩ := cutL_false h
    cases ss with
    | nil => cases h2; exact .inr ⟨_, _, rfl, rfl, h1⟩
    | cons s2 ss =>
      obtain ⟨n2, ns2, rfl, h3, h4⟩ := cutL_false h2
      cases ss with
      | nil => cases h4; exact .inr ⟨_, _, rfl, rfl, h3⟩
      | cons s3 ss =>
        obtain ⟨n3, ns3, rfl, _, _⟩ := cutL_false h4
        exact .inl ⟨rfl, rfl⟩

theorem wrapArm_other {cx : Cx} {n : Node} (h : ∀ p, n.kind ≠ .arm p) : wrapArm cx n = (cx, n) := by
  unfold wrapArm
  split
  · rfl
  · split
    · exact absurd rfl (h _)
    · exact absurd rfl (h _)
    · rfl

theorem wrapArm_cut {a c : Cx} (ht : Twin a c) (hi : c.ident = en) {n s : Node} (h : Cut en n s) :
    Cut en (wrapArm a n).2 (wrapArm c s).2 ∧ Twin (wrapArm a n).1 (wrapArm c s).1 := by
  by_cases hs : ∃ p, s.kind = .arm p
  · obtain ⟨p, hs⟩ := hs
    have hcut := h
    cases h with
    | hole => cases hs
    | @inert k as ks ho hn => replace hs : k = .arm p := hs; subst hs; cases ho
    | @node k k' as ks ks' ho hb hn he hl =>
      replace hs : k = .arm p := hs
      subst hs
      have := blurK_rigid hb (by simp)
      subst this
      have hskip : skipArm a (.mk (.arm p) as ks') = skipArm c (.mk (.arm p) as ks) := by
        unfold skipArm
        dsimp only
        rcases armBody_cut hl with ⟨h1, h2⟩ | ⟨n, s, h1, h2, h3⟩
        · rw [h1, h2]
        · rw [h1, h2, findNested_cut _ _ hcut]
          dsimp only
          rw [isUnreachable_cut ht _ _ h3]
      unfold wrapArm
      rw [hskip]
      split
      · exact ⟨hcut, ht⟩
      · cases ks with
        | nil => cases hl; exact ⟨hcut, ht⟩
        | cons s ss =>
          obtain ⟨n, ns, rfl, h1, h2⟩ := cutL_false hl
          cases ss with
          | nil =>
            cases h2
            exact ⟨.node rfl rfl hn (by simp [KidKinds]) (.cons (cut_call h1 rfl (ht.ident.trans hi) hi) .nil), ht⟩
          | cons s2 ss =>
            obtain ⟨n2, ns2, rfl, h3, h4⟩ := cutL_false h2
            cases ss with
            | nil =>
              cases h4
              exact ⟨.node rfl rfl hn (by simp [KidKinds])
                (.cons h1 (.cons (cut_call h3 rfl (ht.ident.trans hi) hi) .nil)), ht⟩
            | cons s3 ss =>
              obtain ⟨n3, ns3, rfl, _, _⟩ := cutL_false h4
              exact ⟨hcut, ht⟩
  · have hn : ∀ p, n.kind ≠ .arm p := by
      intro p hp
      cases h with
      | hole h => exact apart_noKid h p hp
      | inert => exact hs ⟨p, hp⟩
      | @node k k' as ks ks' ho hb hn he hl =>
        replace hp : k' = .arm p := hp
        subst hp
        exact hs ⟨p, (blurK_rigid hb.symm (by simp))⟩
    rw [wrapArm_other hn, wrapArm_other fun p hp => hs ⟨p, hp⟩]
    exact ⟨h, ht⟩

theorem wrapArms_cut {ns ss : List Node} {a c : Cx} (ht : Twin a c) (hi : c.ident = en)
    (h : CutL en false ns ss) :
    CutL en false (mapA wrapArm a ns).2 (mapA wrapArm c ss).2 ∧
      Twin (mapA wrapArm a ns).1 (mapA wrapArm c ss).1 := by
  induction ss generalizing ns a c with
  | nil => cases h; exact ⟨.nil, ht⟩
  | cons s ss ih =>
    obtain ⟨n, ns, rfl, h1, h2⟩ := cutL_false h
    obtain ⟨g1, g2⟩ := wrapArm_cut ht hi h1
    obtain ⟨g3, g4⟩ := ih g2 (by rw [(wrapArm_same c s).ident]; exact hi) h2
    exact ⟨.cons g1 g3, g4⟩

theorem cutL_last {b : Bool} {ns ss : List Node} (h : CutL en b ns ss) :
    (ns = [] ∧ ss = []) ∨ ∃ n s, ns.getLast? = some n ∧ ss.getLast? = some s ∧ Cut en n s := by
  induction ss generalizing ns with
  | nil => cases h; exact .inl ⟨rfl, rfl⟩
  | cons s ss ih =>
    right
    cases h with
    | @cons n s _ ns ss h1 h2 =>
      rcases ih h2 with ⟨rfl, rfl⟩ | ⟨x, y, hx, hy, hxy⟩
      · exact ⟨_, _, rfl, rfl, h1⟩
      · refine ⟨x, y, ?_, ?_, hxy⟩
        · rw [List.getLast?_cons, hx]; rfl
        · rw [List.getLast?_cons, hy]; rfl
    | letHole h1 h2 h3 =>
      rcases ih h3 with ⟨rfl, rfl⟩ | ⟨x, y, hx, hy, hxy⟩
      · exact absurd rfl h2
      · refine ⟨x, y, ?_, ?_, hxy⟩
        · rw [List.getLast?_cons, hx]; rfl
        · rw [List.getLast?_cons, hy]; rfl

/-- The last statement is an expression without semicolon. -/
theorem cut_tail {n s : Node} (h : Cut en n s) :
    (∃ as e e', n = .mk (.sExpr false) as [e] ∧ s = .mk (.sExpr false) as [e'] ∧ Cut en e e' ∧
      e'.kind.isExpr = true ∧ anyAttr as NAME = false) ∨
    (∀ as e, n ≠ .mk (.sExpr false) as [e]) ∧ ∀ as e, s ≠ .mk (.sExpr false) as [e] := by
  cases h with
  | @hole k as ks h =>
    refine .inr ⟨?_, by simp [hole]⟩
    intro as' e he
    simp only [Node.mk.injEq] at he
    have := (apart_facts h).1
    rw [he.1] at this
    cases this
  | @inert k as ks ho hn =>
    refine .inr ⟨?_, ?_⟩ <;>
    · intro as' e he
      simp only [Node.mk.injEq] at he
      rw [he.1] at ho
      cases ho
  | @node k k' as ks ks' ho hb hn he hl =>
    by_cases hk : k = .sExpr false
    · subst hk
      have := blurK_rigid hb (by simp)
      subst this
      cases ks with
      | nil => cases hl; exact .inr ⟨by simp, by simp⟩
      | cons s ss =>
        obtain ⟨n, ns, rfl, h1, h2⟩ := cutL_false hl
        cases ss with
        | nil => cases h2; exact .inl ⟨_, _, _, rfl, rfl, h1, he.1 _ rfl _ (by simp), hn⟩
        | cons s2 ss =>
          obtain ⟨n2, ns2, rfl, h3, h4⟩ := cutL_false h2
          exact .inr ⟨by simp, by simp⟩
    · refine .inr ⟨?_, ?_⟩
      · intro as' e he
        simp only [Node.mk.injEq] at he
        rw [he.1] at hb
        exact hk (blurK_rigid hb.symm (by simp))
      · intro as' e he
        simp only [Node.mk.injEq] at he
        exact hk he.1

theorem cut_attrs {n s : Node} (h : Cut en n s) (hx : s.kind.isExpr = true) {t : String}
    (ht : anyEmptyAttr s.attrs t = true) : anyEmptyAttr n.attrs t = true := by
  cases h with
  | hole => simp [hole, Node.attrs, Kind.hasAttrs, anyEmptyAttr] at ht
  | inert => exact ht
  | @node k k' as ks ks' ho hb hn he hl =>
    by_cases hp : ∃ p, k = .ePath false p
    · obtain ⟨p, rfl⟩ := hp
      obtain ⟨p', rfl, h1⟩ := blurK_path hb
      exact ht
    · have := blurK_rigid hb fun p he => hp ⟨p, he⟩
      subst this
      cases k' <;> first | (cases hx; done) | exact ht

theorem skipBlock_cut {a c : Cx} (ht : Twin a c) {ns ss : List Node} (h : CutL en true ns ss) :
    skipBlock a ns = skipBlock c ss := by
  unfold skipBlock
  rcases cutL_last h with ⟨rfl, rfl⟩ | ⟨x, y, hx, hy, hxy⟩
  · rfl
  · rw [hx, hy]
    rcases cut_tail hxy with ⟨as, e, e', rfl, rfl, h1, h2, _⟩ | ⟨h1, h2⟩
    · dsimp only
      rw [isUnreachable_cut ht _ _ h1, findNestedL_cut h]
      cases h1 with
      | hole => simp [isUnreachable, hole]
      | inert => rfl
      | @node k k' as ks ks' ho hb hn he hl =>
        congr 2
        by_cases hp : ∃ p, k = .ePath false p
        · obtain ⟨p, rfl⟩ := hp
          obtain ⟨p', rfl, h1⟩ := blurK_path hb
          rfl
        · have := blurK_rigid hb fun p he => hp ⟨p, he⟩
          subst this
          cases k' <;> first | (cases h2; done) | rfl
    · split
      · rename_i heq; cases heq; exact absurd rfl (h1 _ _)
      · split
        · rename_i heq; cases heq; exact absurd rfl (h2 _ _)
        · exact isUnreachableLast_cut ht h

theorem wrapBlock_cut {a c : Cx} (ht : Twin a c) (hi : c.ident = en) {ns ss : List Node}
    (h : CutL en true ns ss) :
    CutL en true (wrapBlock a ns).2 (wrapBlock c ss).2 ∧ Twin (wrapBlock a ns).1 (wrapBlock c ss).1 := by
  unfold wrapBlock
  rw [skipBlock_cut ht h]
  split
  · exact ⟨h, ht⟩
  · exact ⟨.cons (.node rfl rfl rfl (by simp [KidKinds, Node.kind, Kind.isExpr, Cx.nextExpr, Cx.nextExprAttrs, exprCall])
      (.cons (cut_call (.node rfl rfl rfl (by simp [KidKinds]) h) rfl (ht.ident.trans hi) hi) .nil)) .nil, ht⟩

theorem cut_block {n s : Node} (h : Cut en n s) :
    (∃ as ns ss, n = .mk .block as ns ∧ s = .mk .block as ss ∧ CutL en true ns ss ∧
      anyAttr as NAME = false) ∨
    (∀ as ns, n ≠ .mk .block as ns) ∧ ∀ as ns, s ≠ .mk .block as ns := by
  cases h with
  | @hole k as ks h =>
    refine .inr ⟨?_, by simp [hole]⟩
    intro as' e he
    simp only [Node.mk.injEq] at he
    have := (apart_facts h).1
    rw [he.1] at this
    cases this
  | @inert k as ks ho hn =>
    refine .inr ⟨?_, ?_⟩ <;>
    · intro as' e he
      simp only [Node.mk.injEq] at he
      rw [he.1] at ho
      cases ho
  | @node k k' as ks ks' ho hb hn he hl =>
    by_cases hk : k = .block
    · subst hk
      have := blurK_rigid hb (by simp)
      subst this
      exact .inl ⟨_, _, _, rfl, rfl, hl, hn⟩
    · refine .inr ⟨?_, ?_⟩
      · intro as' e he
        simp only [Node.mk.injEq] at he
        rw [he.1] at hb
        exact hk (blurK_rigid hb.symm (by simp))
      · intro as' e he
        simp only [Node.mk.injEq] at he
        exact hk he.1

theorem visitIf_other {cx : Cx} {as : List Attr} {ks : List Node}
    (h : ∀ c asb ss rest, ks ≠ c :: .mk .block asb ss :: rest) :
    visitIf cx (.mk .eIf as ks) = (cx, .mk .eIf as ks) := by
  rw [visitIf.eq_def]
  split
  · rename_i heq; simp only [Node.mk.injEq] at heq; exact absurd heq.2.2 (h _ _ _ _)
  · rename_i heq; simp only [Node.mk.injEq] at heq; exact absurd heq.2.2 (h _ _ _ _)
  · rfl

theorem visitIf_many {cx : Cx} {as : List Attr} {x1 x2 x3 x4 : Node} {ks : List Node} :
    visitIf cx (.mk .eIf as (x1 :: x2 :: x3 :: x4 :: ks)) = (cx, .mk .eIf as (x1 :: x2 :: x3 :: x4 :: ks)) := by
  rw [visitIf.eq_def]
  split
  · rename_i heq; simp at heq
  · rename_i heq; simp at heq
  · rfl

theorem visitIf_kinds (cx : Cx) (n : Node) (hk : n.kind = .eIf) :
    (visitIf cx n).2.kind = .eIf := by
  rw [(visitIf_top cx n).1, hk]

theorem visitIf_cut : ∀ (s n : Node) (a c : Cx), Twin a c → c.ident = en → s.kind = .eIf → Cut en n s →
    Cut en (visitIf a n).2 (visitIf c s).2 ∧ Twin (visitIf a n).1 (visitIf c s).1 := by
  intro s
  induction s using Node.ind with
  | h k as ks ih =>
  intro n a c ht hi hk h
  have hcut := h
  cases h with
  | hole => cases hk
  | inert ho hn => rw [show k = Kind.eIf from hk] at ho; cases ho
  | @node k k' as ks ks' ho hb hn he hl =>
    replace hk : k = .eIf := hk
    subst hk
    have := blurK_rigid hb (by simp)
    subst this
    cases ks with
    | nil =>
      cases hl
      rw [visitIf_other (by simp), visitIf_other (by simp)]
      exact ⟨hcut, ht⟩
    | cons s1 ss =>
    obtain ⟨n1, ns, rfl, h1, h2⟩ := cutL_false hl
    cases ss with
    | nil =>
      cases h2
      rw [visitIf_other (by simp), visitIf_other (by simp)]
      exact ⟨hcut, ht⟩
    | cons s2 ss =>
    obtain ⟨n2, ns, rfl, h3, h4⟩ := cutL_false h2
    rcases cut_block h3 with ⟨asb, bn, bs, rfl, rfl, hbl, hnb⟩ | ⟨g1, g2⟩
    · obtain ⟨w1, w2⟩ := wrapBlock_cut ht hi hbl
      have wblock : Cut en (.mk .block asb (wrapBlock a bn).2) (.mk .block asb (wrapBlock c bs).2) :=
        .node rfl rfl hnb (by simp [KidKinds]) w1
      cases ss with
      | nil =>
        cases h4
        simp only [visitIf]
        exact ⟨.node rfl rfl hn (by simp [KidKinds]) (.cons h1 (.cons wblock .nil)), w2.error _⟩
      | cons s3 ss =>
      obtain ⟨n3, ns, rfl, h5, h6⟩ := cutL_false h4
      cases ss with
      | cons s4 ss =>
        obtain ⟨n4, ns, rfl, _, _⟩ := cutL_false h6
        rw [visitIf_many, visitIf_many]
        exact ⟨hcut, ht⟩
      | nil =>
        cases h6
        simp only [visitIf]
        have hi' : (wrapBlock c bs).1.ident = en := by rw [(wrapBlock_same c bs).ident]; exact hi
        have h5' := h5
        cases h5 with
        | hole => exact absurd rfl (he.2 rfl hole (by simp))
        | @inert k as ks ho hn' =>
          have e1 : ∀ l, k ≠ .eBlock l := by rintro l rfl; cases ho
          have e2 : k ≠ .eIf := by rintro rfl; cases ho
          simp only [Node.kind]
          exact ⟨.node rfl rfl hn ⟨by simp, fun _ e hem => he.2 rfl e (by simpa using hem)⟩
            (.cons h1 (.cons wblock (.cons h5' .nil))), w2.panic _⟩
        | @node j j' bs' js js' ho' hb' hn' he' hl' =>
          have hold : Cut en (.mk .eIf as [n1, .mk .block asb (wrapBlock a bn).2, .mk j' bs' js'])
              (.mk .eIf as [s1, .mk .block asb (wrapBlock c bs).2, .mk j bs' js]) :=
            .node rfl rfl hn ⟨by simp, fun _ e hem => he.2 rfl e (by simpa using hem)⟩
              (.cons h1 (.cons wblock (.cons h5' .nil)))
          by_cases hp : ∃ p, j = .ePath false p
          · obtain ⟨p, rfl⟩ := hp
            obtain ⟨p', rfl, _⟩ := blurK_path hb'
            exact ⟨hold, w2.panic _⟩
          · have := blurK_rigid hb' fun p he => hp ⟨p, he⟩
            subst this
            cases j' with
            | eBlock l =>
              obtain ⟨v1, v2⟩ := wrapBlock_cut w2 hi' hl'
              exact ⟨.node rfl rfl hn ⟨by simp, by simp [Node.kind]⟩ (.cons h1 (.cons wblock (.cons
                (.node rfl rfl hn' (by simp [KidKinds]) v1) .nil))), v2⟩
            | eIf =>
              obtain ⟨v1, v2⟩ := ih (.mk .eIf bs' js) (by simp) _ _ _ w2 hi' rfl h5'
              refine ⟨.node rfl rfl hn ⟨by simp, ?_⟩ (.cons h1 (.cons wblock (.cons v1 .nil))), v2⟩
              intro _ e hem
              simp only [List.drop_succ_cons, List.drop_zero, List.mem_singleton] at hem
              subst hem
              rw [visitIf_kinds _ _ rfl]
              simp
            | _ => exact ⟨hold, w2.panic _⟩
    · rw [visitIf_other (by
        intro c asb ss rest heq
        simp only [List.cons.injEq] at heq
        exact g1 _ _ heq.2.1), visitIf_other (by
        intro c asb ss rest heq
        simp only [List.cons.injEq] at heq
        exact g2 _ _ heq.2.1)]
      exact ⟨hcut, ht⟩

theorem childExpr_mk (cx : Cx) (k : Kind) (as : List Attr) (ks : List Node) :
    ∃ ks', (childExpr cx (.mk k as ks)).2 = .mk k as ks' := by
  have := childExpr_top cx (.mk k as ks)
  generalize (childExpr cx (.mk k as ks)).2 = r at *
  obtain ⟨k', as', ks'⟩ := r
  exact ⟨ks', by rw [show k' = k from this.1, show as' = as from this.2]⟩

theorem childExpr_stop {cx : Cx} {n : Node} (h : isUnreachable cx n = true) : childExpr cx n = (cx, n) := by
  obtain ⟨k, as, ks⟩ := n
  rw [childExpr.eq_def]
  dsimp only
  rw [h]
  simp

theorem childLast_stop {cx : Cx} : ∀ {ss : List Node},
    (∀ x, ss.getLast? = some x → ∀ as e, x ≠ .mk (.sExpr false) as [e]) → childLast cx ss = (cx, ss) := by
  intro ss
  induction ss with
  | nil => intro _; rfl
  | cons s ss ih =>
    intro h
    cases ss with
    | nil =>
      rw [childLast.eq_def]
      split
      · rename_i heq; simp at heq
      · rename_i heq; simp only [List.cons.injEq, and_true] at heq; exact absurd heq (h s rfl _ _)
      · rename_i heq; rw [heq]
      · rename_i heq; simp at heq
    | cons t ss =>
      rw [childLast, ih (fun x hx => h x (by rw [List.getLast?_cons_cons]; exact hx))]

theorem childLast_tail (cx : Cx) (as : List Attr) (e : Node) : ∀ (ss : List Node),
    childLast cx (ss ++ [.mk (.sExpr false) as [e]]) =
      ((childExpr cx e).1, ss ++ [.mk (.sExpr false) as [(childExpr cx e).2]]) := by
  intro ss
  induction ss with
  | nil => rw [List.nil_append, childLast]; rfl
  | cons s ss ih =>
    cases ss with
    | nil => rw [List.cons_append, List.nil_append, childLast, childLast]; rfl
    | cons t ss =>
      rw [List.cons_append, List.cons_append, childLast, ← List.cons_append, ih]
      rfl

theorem cutL_concat {b : Bool} {ns ss : List Node} {n s m t : Node} (h : CutL en b (ns ++ [n]) (ss ++ [s]))
    (hl : ns.length = ss.length) (hk : Cut en m t) : CutL en b (ns ++ [m]) (ss ++ [t]) := by
  induction ss generalizing ns with
  | nil =>
    cases ns with
    | nil => exact .cons hk .nil
    | cons _ _ => simp at hl
  | cons x ss ih =>
    cases ns with
    | nil => simp at hl
    | cons y ns =>
      simp only [List.length_cons, Nat.add_right_cancel_iff] at hl
      rw [List.cons_append, List.cons_append] at h ⊢
      cases h with
      | cons h1 h2 => exact .cons h1 (ih h2 hl)
      | letHole h1 h2 h3 => exact .letHole h1 (by simp) (ih h3 hl)

theorem getLast?_split {ss : List Node} {x : Node} (h : ss.getLast? = some x) : ∃ l, ss = l ++ [x] := by
  obtain ⟨l, hl⟩ := List.getLast?_eq_some_iff.mp h
  exact ⟨l, hl⟩

theorem childLast_cut_of {a c : Cx} (ht : Twin a c) {b : Bool} {ns ss : List Node} (h : CutL en b ns ss)
    (hrec : ∀ x as e, ss.getLast? = some x → x = .mk (.sExpr false) as [e] → ∀ n, Cut en n e →
      Cut en (childExpr a n).2 (childExpr c e).2 ∧ Twin (childExpr a n).1 (childExpr c e).1) :
    CutL en b (childLast a ns).2 (childLast c ss).2 ∧ Twin (childLast a ns).1 (childLast c ss).1 := by
  rcases cutL_last h with ⟨rfl, rfl⟩ | ⟨x, y, hx, hy, hxy⟩
  · exact ⟨.nil, ht⟩
  · rcases cut_tail hxy with ⟨as, e, e', rfl, rfl, h1, h2, h3⟩ | ⟨h1, h2⟩
    · obtain ⟨g1, g2⟩ := hrec _ as e' hy rfl e h1
      obtain ⟨l, rfl⟩ := getLast?_split hx
      obtain ⟨l', rfl⟩ := getLast?_split hy
      rw [childLast_tail, childLast_tail]
      refine ⟨cutL_concat h (by simpa using h.length) ?_, g2⟩
      refine .node rfl rfl h3 ⟨?_, by simp⟩ (.cons g1 .nil)
      intro _ _ x hx
      simp only [List.mem_singleton] at hx
      subst hx
      rw [(childExpr_top c e').1]
      exact h2
    · rw [childLast_stop (fun z hz as e he => by rw [hx] at hz; cases hz; exact h1 _ _ he),
        childLast_stop (fun z hz as e he => by rw [hy] at hz; cases hz; exact h2 _ _ he)]
      exact ⟨h, ht⟩

theorem childExpr_cut : ∀ (s n : Node) (a c : Cx), Twin a c → c.ident = en → Cut en n s →
    Cut en (childExpr a n).2 (childExpr c s).2 ∧ Twin (childExpr a n).1 (childExpr c s).1 := by
  intro s
  induction s using Node.strongInd with
  | h s ih =>
  intro n a c ht hi h
  have hun := isUnreachable_cut ht _ _ h
  have hcut := h
  by_cases hu : isUnreachable c s = true
  · rw [childExpr_stop hu, childExpr_stop (hun.trans hu)]
    exact ⟨h, ht⟩
  cases h with
  | hole => exact absurd (by simp [isUnreachable, hole]) hu
  | @inert k as ks ho hn =>
    have : ∀ cx, childExpr cx (.mk k as ks) = (cx, .mk k as ks) := by
      intro cx
      rw [childExpr.eq_def]
      dsimp only
      split
      · rfl
      · cases k <;> first | (cases ho; done) | rfl
    rw [this, this]
    exact ⟨hcut, ht⟩
  | @node k k' as ks ks' ho hb hn he hl =>
    have hmem : ∀ x ∈ ks, sizeOf x < sizeOf (Node.mk k as ks) := fun x hx => Node.sizeOf_kid hx
    rw [childExpr.eq_def, childExpr.eq_def]
    dsimp only
    rw [hun, ht.visitLast]
    split
    · exact ⟨hcut, ht⟩
    · by_cases hp : ∃ p, k = .ePath false p
      · obtain ⟨p, rfl⟩ := hp
        obtain ⟨p', rfl, h1⟩ := blurK_path hb
        exact ⟨hcut, ht⟩
      · have := blurK_rigid hb fun p he => hp ⟨p, he⟩
        subst this
        have hlast : k'.isBlockLike = true → CutL en true (childLast a ks').2 (childLast c ks).2 ∧
            Twin (childLast a ks').1 (childLast c ks).1 := by
          intro hbl
          rw [hbl] at hl
          refine childLast_cut_of ht hl fun x as e hx hxe n hn => ?_
          subst hxe
          have hm := hmem _ (List.mem_of_getLast? hx)
          refine ih e ?_ n a c ht hi hn
          simp at hm ⊢
          omega
        cases k' with
        | eBlock l =>
          obtain ⟨g1, g2⟩ := hlast rfl
          exact ⟨.node rfl rfl hn (by simp [KidKinds]) g1, g2⟩
        | eUnsafe =>
          obtain ⟨g1, g2⟩ := hlast rfl
          exact ⟨.node rfl rfl hn (by simp [KidKinds]) g1, g2⟩
        | eMatch =>
          cases ks with
          | nil => cases hl; exact ⟨hcut, ht⟩
          | cons s1 ss =>
            obtain ⟨n1, ns, rfl, h1, h2⟩ := cutL_false hl
            obtain ⟨g1, g2⟩ := wrapArms_cut ht hi h2
            exact ⟨.node rfl rfl hn (by simp [KidKinds]) (.cons h1 g1), g2⟩
        | eIf => exact visitIf_cut _ _ _ _ ht hi rfl hcut
        | eLoop l =>
          obtain ⟨g1, g2⟩ := loopVisitL_cut l (nested := false) ht hi hl
          exact ⟨.node rfl rfl hn (by simp [KidKinds]) g1, g2⟩
        | eMethodCall m =>
          cases ks with
          | nil => cases hl; exact ⟨hcut, ht⟩
          | cons s1 ss =>
            obtain ⟨n1, ns, rfl, h1, h2⟩ := cutL_false hl
            obtain ⟨g1, g2⟩ := ih s1 (hmem _ (by simp)) _ _ _ ht hi h1
            exact ⟨.node rfl rfl hn (by simp [KidKinds]) (.cons g1 h2), g2⟩
        | eParen =>
          cases ks with
          | nil => cases hl; exact ⟨hcut, ht⟩
          | cons s1 ss =>
            obtain ⟨n1, ns, rfl, h1, h2⟩ := cutL_false hl
            cases ss with
            | nil =>
              cases h2
              obtain ⟨g1, g2⟩ := ih s1 (hmem _ (by simp)) _ _ _ ht hi h1
              exact ⟨.node rfl rfl hn (by simp [KidKinds]) (.cons g1 .nil), g2⟩
            | cons s2 ss =>
              obtain ⟨n2, ns2, rfl, h3, h4⟩ := cutL_false h2
              exact ⟨hcut, ht⟩
        | _ => exact ⟨hcut, ht⟩

theorem childLast_cut {a c : Cx} (ht : Twin a c) (hi : c.ident = en) {b : Bool} {ns ss : List Node}
    (h : CutL en b ns ss) :
    CutL en b (childLast a ns).2 (childLast c ss).2 ∧ Twin (childLast a ns).1 (childLast c ss).1 :=
  childLast_cut_of ht h fun _ _ e _ _ n hn => childExpr_cut e n a c ht hi hn

end AutoEnums
