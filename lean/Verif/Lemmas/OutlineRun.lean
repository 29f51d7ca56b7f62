import Verif.Lemmas.OutlineChild
import Verif.Lemmas.TidyRun

/-! # Cutting out inner attributes: visits -/

namespace AutoEnums

open Judg Spec

variable {en : Ident}

/-! ## Before the kids -/

theorem cut_mk {k : Kind} {as : List Attr} {ks : List Node} {s : Node} (h : Cut en (.mk k as ks) s)
    (hn : anyAttr as NAME = false) :
    (s = .mk k as ks ∧ k.isOpaque = true) ∨ ∃ k0 ks0, s = .mk k0 as ks0 ∧ k0.isOpaque = false ∧
      blurK en k = blurK en k0 ∧ KidKinds k0 ks0 ∧ CutL en k0.isBlockLike ks ks0 := by
  cases h with
  | hole h => rw [(apart_facts h).2.2.2] at hn; cases hn
  | inert h1 h2 => exact .inl ⟨rfl, h1⟩
  | node h1 h2 h3 h4 h5 => exact .inr ⟨_, _, rfl, h1, h2, h4, h5⟩

theorem sublist_name {as as' : List Attr} (h : as'.Sublist as) (hn : anyAttr as NAME = false) :
    anyAttr as' NAME = false := by
  unfold anyAttr at *
  rw [List.any_eq_false] at *
  exact fun x hx => hn x (h.subset hx)

theorem Cut.reattr {k : Kind} {as as' : List Attr} {ks : List Node} {k0 : Kind} {ks0 : List Node}
    (h : Cut en (.mk k as ks) (.mk k0 as ks0)) (hn : anyAttr as NAME = false)
    (hn' : anyAttr as' NAME = false) : Cut en (.mk k as' ks) (.mk k0 as' ks0) := by
  rcases cut_mk h hn with ⟨heq, ho⟩ | ⟨k1, ks1, heq, h1, h2, h3, h4⟩
  · cases heq; exact .inert ho hn'
  · cases heq; exact .node h1 h2 hn' h3 h4

theorem Cut.hasAttrs {k : Kind} {as : List Attr} {ks : List Node} {k0 : Kind} {ks0 : List Node}
    (h : Cut en (.mk k as ks) (.mk k0 as ks0)) (hn : anyAttr as NAME = false) : k.hasAttrs = k0.hasAttrs := by
  rcases cut_mk h hn with ⟨heq, ho⟩ | ⟨k1, ks1, heq, h1, h2, h3, h4⟩
  · cases heq; rfl
  · cases heq; exact hasAttrs_blur h2

/-- The second node is not a hole. -/
theorem Cut.attrs {n s : Node} (h : Cut en n s) (hn : anyAttr n.rawAttrs NAME = false) :
    ∃ k k0 as ks ks0, n = .mk k as ks ∧ s = .mk k0 as ks0 ∧ anyAttr as NAME = false := by
  obtain ⟨k, as, ks⟩ := n
  rcases cut_mk h hn with ⟨rfl, _⟩ | ⟨k0, ks0, rfl, _⟩
  · exact ⟨_, _, _, _, _, rfl, rfl, hn⟩
  · exact ⟨_, _, _, _, _, rfl, rfl, hn⟩

theorem findRemoveAttr_cut {n s : Node} (h : Cut en n s) (hn : anyAttr n.rawAttrs NAME = false) (x : String) :
    (n.findRemoveAttr x = none ∧ s.findRemoveAttr x = none) ∨
    ∃ a n1 s1, n.findRemoveAttr x = some (a, n1) ∧ s.findRemoveAttr x = some (a, s1) ∧ Cut en n1 s1 ∧
      anyAttr n1.rawAttrs NAME = false := by
  obtain ⟨k, k0, as, ks, ks0, rfl, rfl, hn⟩ := h.attrs hn
  unfold Node.findRemoveAttr
  dsimp only
  rw [h.hasAttrs hn]
  split
  · cases hf : findRemove (·.is x) as with
    | none => exact .inl ⟨rfl, rfl⟩
    | some p =>
      obtain ⟨a, as'⟩ := p
      have hs : as'.Sublist as := by
        obtain ⟨_, l1, l2, h1, h2, _⟩ := findRemove_some hf
        subst h1 h2
        exact List.Sublist.append (.refl _) (List.sublist_cons_self _ _)
      exact .inr ⟨a, _, _, rfl, rfl, h.reattr hn (sublist_name hs hn), sublist_name hs hn⟩
  · exact .inl ⟨rfl, rfl⟩

theorem anyEmptyAttr_cut {n s : Node} (h : Cut en n s) (hn : anyAttr n.rawAttrs NAME = false)
    (hx : n.kind.isExpr = true) (x : String) : n.anyEmptyAttr x = s.anyEmptyAttr x := by
  have hx' := h.isExpr
  obtain ⟨k, k0, as, ks, ks0, rfl, rfl, hn⟩ := h.attrs hn
  have hh := h.hasAttrs hn
  rw [hx] at hx'
  simp only [Node.kind] at hx hx'
  have : ∀ {k : Kind} {ks : List Node}, k.isExpr = true →
      (Node.mk k as ks).anyEmptyAttr x = AutoEnums.anyEmptyAttr (if k.hasAttrs then as else []) x := by
    intro k ks hk
    unfold Node.anyEmptyAttr
    congr 1
    rw [Node.attrs.eq_def]
    split
    · rename_i heq; simp only [Node.mk.injEq] at heq; rw [heq.1] at hk; cases hk
    · rename_i heq; simp only [Node.mk.injEq] at heq; rw [heq.1, heq.2.1]
  rw [this hx, this hx'.symm, hh]

theorem Twin.same {a b : Cx} (h : Same a b) (h1 : Clean a) (h2 : Clean b) : Twin b a :=
  .of_same h (h2.1.trans h1.1.symm) (h2.2.trans h1.2.symm)

theorem twin_refl (a : Cx) : Twin a a := rfl
theorem Twin.symm {a c : Cx} (h : Twin a c) : Twin c a := Eq.symm h
theorem Twin.trans {a b c : Cx} (h : Twin a b) (h' : Twin b c) : Twin a c := Eq.trans h h'

theorem replaceBoxed_cut {a c : Cx} (ht : Twin a c) (hi : c.ident = en) {ns ss : List Node}
    (h : CutL en false ns ss) :
    CutL en false (a.replaceBoxed ns).2 (c.replaceBoxed ss).2 ∧
      Twin (a.replaceBoxed ns).1 (c.replaceBoxed ss).1 := by
  cases ss with
  | nil =>
    cases h
    exact ⟨.cons (cut_call cut_unit rfl (ht.ident.trans hi) hi) .nil, ht.next _ _⟩
  | cons s ss =>
    obtain ⟨n, ns, rfl, h1, h2⟩ := cutL_false h
    unfold Cx.replaceBoxed
    dsimp only
    rw [isMarkerExpr_cut ht h1]
    split
    · exact ⟨h, ht⟩
    · exact ⟨.cons (cut_call h1 rfl (ht.ident.trans hi) hi) h2, ht.next _ _⟩

theorem blur_inv {k k' : Kind} (h : blurK en k' = blurK en k) (j : Kind) (hj : ∀ p, j ≠ .ePath false p) :
    k' = j ↔ k = j := by
  constructor
  · rintro rfl
    exact blurK_rigid h.symm hj
  · rintro rfl
    exact blurK_rigid h hj

theorem tryArms_cut {x y : Node} (h : Cut en x y) : CutL en false (tryArms x) (tryArms y) := by
  have t : ∀ p, Cut en (pathE p) (pathE p) := fun p => .node rfl rfl rfl (by simp [KidKinds]) .nil
  refine .cons (.node rfl rfl rfl (by simp [KidKinds]) (.cons (t _) .nil)) (.cons (.node rfl rfl rfl (by simp [KidKinds]) ?_) .nil)
  refine .cons (.node rfl rfl rfl (by simp [KidKinds]) (.cons ?_ .nil)) .nil
  refine .node rfl rfl rfl (by simp [KidKinds, Node.kind, Kind.isExpr]) (.cons ?_ .nil)
  refine .node rfl rfl rfl (by simp [KidKinds]) (.cons ?_ .nil)
  exact .node rfl rfl rfl (by simp [KidKinds]) (.cons (t _) (.cons h .nil))

theorem visitMode_cut {a c : Cx} {sc : Scope} (ht : Twin a c) (hi : c.ident = en) {n s : Node} (h : Cut en n s)
    (hn : anyAttr n.rawAttrs NAME = false) (hx : n.kind.isExpr = true) :
    Cut en (visitMode sc a n).2 (visitMode sc c s).2 ∧ Twin (visitMode sc a n).1 (visitMode sc c s).1 ∧
      anyAttr (visitMode sc a n).2.rawAttrs NAME = false := by
  have hne := anyEmptyAttr_cut h hn hx NEVER
  obtain ⟨k, k0, as, ks, ks0, rfl, rfl, hn⟩ := h.attrs hn
  have hk : ∀ j : Kind, j.isOpaque = false → (∀ p, j ≠ .ePath false p) → (k = j ↔ k0 = j) := by
    intro j hj hp
    rcases cut_mk h hn with ⟨heq, ho⟩ | ⟨k1, ks1, heq, h1, h2, h3, h4⟩
    · cases heq; exact .rfl
    · cases heq; exact blur_inv h2 j hp
  unfold visitMode
  rw [ht.mode]
  split
  · unfold visitReturn
    rw [hne]
    split
    · by_cases hr : k = .eReturn
      · have hr0 := (hk .eReturn rfl (by simp)).mp hr
        subst hr hr0
        rcases cut_mk h hn with ⟨heq, ho⟩ | ⟨k1, ks1, heq, h1, h2, h3, h4⟩
        · cases ho
        · cases heq
          obtain ⟨g1, g2⟩ := replaceBoxed_cut ht hi h4
          exact ⟨.node rfl rfl hn (by simp [KidKinds]) g1, g2, hn⟩
      · have hr0 := fun hr0 => hr ((hk .eReturn rfl (by simp)).mpr hr0)
        split
        · rename_i heq; simp only [Node.mk.injEq] at heq; exact absurd heq.1 hr
        · split
          · rename_i heq; simp only [Node.mk.injEq] at heq; exact absurd heq.1 hr0
          · exact ⟨h, ht, hn⟩
    · exact ⟨h, ht, hn⟩
  · unfold visitTry
    rw [hne]
    split
    · by_cases hr : k = .eTry
      · have hr0 := (hk .eTry rfl (by simp)).mp hr
        subst hr hr0
        rcases cut_mk h hn with ⟨heq, ho⟩ | ⟨k1, ks1, heq, h1, h2, h3, h4⟩
        · cases ho
        · cases heq
          cases ks0 with
          | nil => cases h4; exact ⟨h, ht, hn⟩
          | cons s ss =>
            obtain ⟨m, ms, rfl, g1, g2⟩ := cutL_false h4
            cases ss with
            | nil =>
              cases g2
              dsimp only
              rw [isMarkerExpr_cut ht g1]
              split
              · exact ⟨h, ht, hn⟩
              · exact ⟨.node rfl rfl hn (by simp [KidKinds])
                  (.cons g1 (tryArms_cut (cut_call (.node rfl rfl rfl (by simp [KidKinds]) .nil) rfl (ht.ident.trans hi) hi))),
                  ht.next _ _, hn⟩
            | cons s2 ss =>
              obtain ⟨m2, ms2, rfl, g3, g4⟩ := cutL_false g2
              exact ⟨h, ht, hn⟩
      · have hr0 := fun hr0 => hr ((hk .eTry rfl (by simp)).mpr hr0)
        split
        · rename_i heq; simp only [Node.mk.injEq] at heq; exact absurd heq.1 hr
        · split
          · rename_i heq; simp only [Node.mk.injEq] at heq; exact absurd heq.1 hr0
          · exact ⟨h, ht, hn⟩
    · exact ⟨h, ht, hn⟩
  · exact ⟨h, ht, hn⟩

theorem visitNested_cut {a c : Cx} {sc : Scope} (ht : Twin a c) (hi : c.ident = en) {n s : Node}
    (h : Cut en n s) (at_ : Attr) :
    Cut en (visitNested sc a n at_).2 (visitNested sc c s at_).2 ∧
      Twin (visitNested sc a n at_).1 (visitNested sc c s at_).1 := by
  unfold visitNested
  dsimp only
  split
  · refine childExpr_cut _ _ _ _ (ht.assert _ _) ?_ h
    unfold Cx.assert; split <;> exact hi
  · exact ⟨h, (ht.assert _ _).error _⟩

theorem visitNested_attrs {a : Cx} {sc : Scope} {n : Node} {at_ : Attr} :
    (visitNested sc a n at_).2.rawAttrs = n.rawAttrs ∧ (visitNested sc a n at_).2.kind = n.kind := by
  unfold visitNested
  dsimp only
  split
  · exact ⟨(childExpr_top _ _).2, (childExpr_top _ _).1⟩
  · exact ⟨rfl, rfl⟩

theorem nestedStep_cut {a c : Cx} {sc : Scope} (ht : Twin a c) (hi : c.ident = en) {n s : Node} (h : Cut en n s)
    (hn : anyAttr n.rawAttrs NAME = false) :
    Cut en (nestedStep sc a n).2 (nestedStep sc c s).2 ∧ Twin (nestedStep sc a n).1 (nestedStep sc c s).1 ∧
      anyAttr (nestedStep sc a n).2.rawAttrs NAME = false := by
  unfold nestedStep
  split
  · exact ⟨h, ht, hn⟩
  · rcases findRemoveAttr_cut h hn NESTED with ⟨h1, h2⟩ | ⟨x, n1, s1, h1, h2, h3, h4⟩
    · rw [h1, h2]; exact ⟨h, ht, hn⟩
    · rw [h1, h2]
      obtain ⟨g1, g2⟩ := visitNested_cut (sc := sc) ht hi h3 x
      exact ⟨g1, g2, by dsimp only; rw [visitNested_attrs.1]; exact h4⟩

theorem Cut.anyName {n s : Node} (h : Cut en n s) (hn : anyAttr n.rawAttrs NAME = false)
    (hx : n.kind.isExpr = true) : n.anyAttr NAME = false ∧ s.anyAttr NAME = false := by
  have hx' := h.isExpr
  rw [hx] at hx'
  obtain ⟨k, k0, as, ks, ks0, rfl, rfl, hn⟩ := h.attrs hn
  exact ⟨anyAttr_mk (by rintro b rfl; cases hx) hn, anyAttr_mk (by rintro b rfl; cases hx') hn⟩

theorem seen_twin (cx : Cx) (n : Node) : Twin (seen cx n) cx := by
  unfold seen
  split
  · rfl
  · rfl

theorem seen_ident (cx : Cx) (n : Node) : (seen cx n).ident = cx.ident := (seen_twin cx n).ident

theorem visitMode_ident (sc : Scope) (cx : Cx) (n : Node) : (visitMode sc cx n).1.ident = cx.ident := by
  unfold visitMode
  split
  · unfold visitReturn
    split
    · split
      · unfold Cx.replaceBoxed
        split
        · rfl
        · dsimp only; split <;> rfl
      · rfl
    · rfl
  · unfold visitTry
    split
    · split
      · split <;> rfl
      · rfl
    · rfl
  · rfl

theorem pre_cut {a c : Cx} {sc : Scope} (ht : Twin a c) (hi : c.ident = en) {n s : Node} (h : Cut en n s)
    (hn : anyAttr n.rawAttrs NAME = false) (hx : n.kind.isExpr = true) :
    Cut en (pre .visitor sc a n).2 (pre .visitor sc c s).2 ∧
      Twin (pre .visitor sc a n).1 (pre .visitor sc c s).1 ∧
      anyAttr (pre .visitor sc a n).2.rawAttrs NAME = false := by
  unfold pre
  dsimp only
  have ht' : Twin (seen a n) (seen c s) := (seen_twin a n).trans (ht.trans (seen_twin c s).symm)
  have hi' : (seen c s).ident = en := (seen_ident c s).trans hi
  obtain ⟨g1, g2, g3⟩ := visitMode_cut (sc := sc) ht' hi' h hn hx
  exact nestedStep_cut g2 ((visitMode_ident _ _ _).trans hi') g1 g3

theorem preSub_cut {a c : Cx} {sc : Scope} (ht : Twin a c) (hi : c.ident = en) {n s : Node} (h : Cut en n s)
    (hn : anyAttr n.rawAttrs NAME = false) :
    Cut en (preSub .visitor sc a n).2 (preSub .visitor sc c s).2 ∧
      Twin (preSub .visitor sc a n).1 (preSub .visitor sc c s).1 ∧
      anyAttr (preSub .visitor sc a n).2.rawAttrs NAME = false := by
  unfold preSub
  dsimp only
  split
  · exact ⟨h, ht, hn⟩
  · rcases findRemoveAttr_cut h hn NESTED with ⟨h1, h2⟩ | ⟨x, n1, s1, h1, h2, h3, h4⟩
    · rw [h1, h2]; exact ⟨h, ht, hn⟩
    · rw [h1, h2]
      obtain ⟨k, k0, as, ks, ks0, rfl, rfl, hn'⟩ := h3.attrs h4
      rcases cut_mk h3 hn' with ⟨heq, ho⟩ | ⟨k1, ks1, heq, e1, e2, e3, e4⟩
      · cases heq
        cases k <;> first | exact ⟨h3, ht, hn'⟩ | (cases ho; done)
      · cases heq
        by_cases hp : ∃ p, k0 = .ePath false p
        · obtain ⟨p, rfl⟩ := hp
          obtain ⟨p', rfl, _⟩ := blurK_path e2
          exact ⟨h3, ht, hn'⟩
        · have := blurK_rigid e2 fun p he => hp ⟨p, he⟩
          subst this
          cases k with
          | arm p =>
            cases ks0 with
            | nil => cases e4; exact ⟨h3, ht, hn'⟩
            | cons s ss =>
              obtain ⟨m, ms, rfl, f1, f2⟩ := cutL_false e4
              cases ss with
              | nil =>
                cases f2
                obtain ⟨g1, g2⟩ := visitNested_cut (sc := sc) ht hi f1 x
                exact ⟨.node rfl rfl hn' (by simp [KidKinds]) (.cons g1 .nil), g2, hn'⟩
              | cons s2 ss =>
                obtain ⟨m2, ms2, rfl, f3, f4⟩ := cutL_false f2
                cases ss with
                | nil =>
                  cases f4
                  obtain ⟨g1, g2⟩ := visitNested_cut (sc := sc) ht hi f3 x
                  exact ⟨.node rfl rfl hn' (by simp [KidKinds]) (.cons f1 (.cons g1 .nil)), g2, hn'⟩
                | cons s3 ss =>
                  obtain ⟨m3, ms3, rfl, f5, f6⟩ := cutL_false f4
                  exact ⟨h3, ht, hn'⟩
          | sLocal p =>
            cases ks0 with
            | nil => cases e4; exact ⟨h3, ht, hn'⟩
            | cons s ss =>
              obtain ⟨m, ms, rfl, f1, f2⟩ := cutL_false e4
              obtain ⟨g1, g2⟩ := visitNested_cut (sc := sc) ht hi f1 x
              exact ⟨.node rfl rfl hn' (by simp [KidKinds]) (.cons g1 f2), g2, hn'⟩
          | _ => exact ⟨h3, ht, hn'⟩

/-! ## After the kids -/

theorem fills_refl : ∀ (n : Node), Fills en n n := by
  intro n
  induction n using Node.ind with
  | h k as ks ih =>
  refine .node rfl ?_
  induction ks with
  | nil => exact .nil
  | cons x ks ih2 => exact .cons (ih _ (by simp)) (ih2 fun y hy => ih _ (by simp [hy]))

theorem Cut.fills : ∀ (s n : Node), Cut en n s → Fills en n s := by
  intro s
  induction s using Node.ind with
  | h k as ks ih =>
  have hl : ∀ (b : Bool) (ss ns : List Node), (∀ x ∈ ss, x ∈ ks) → CutL en b ns ss → FillsL en ns ss := by
    intro b ss
    induction ss with
    | nil => intro ns _ h; cases h; exact .nil
    | cons s ss ih2 =>
      intro ns hx h
      cases h with
      | cons h1 h2 =>
        exact .cons (ih _ (hx _ (by simp)) _ h1) (ih2 _ (fun x hx' => hx _ (by simp [hx'])) h2)
      | letHole h1 h2 h3 => exact .letHole (ih2 _ (fun x hx' => hx _ (by simp [hx'])) h3)
  intro n h
  cases h with
  | hole h => exact .hole (by rw [isExprNode_eq]; exact (apart_facts h).1)
  | inert => exact fills_refl _
  | node h1 h2 h3 h4 h5 => exact .node h2 (hl _ _ _ (fun _ h => h) h5)

theorem fillsL_length {ns ss : List Node} (h : FillsL en ns ss) : ns.length = ss.length := by
  induction ss generalizing ns with
  | nil => cases h; rfl
  | cons s ss ih => cases h <;> simp [ih ‹_›]

theorem findRemoveAttr_of_none {k : Kind} {as : List Attr} {ks : List Node} {x : String}
    (h : k.hasAttrs = true) (hf : findRemove (·.is x) as = none) : (Node.mk k as ks).findRemoveAttr x = none := by
  simp [Node.findRemoveAttr, h, hf]

theorem findRemoveAttr_of_some {k : Kind} {as as' : List Attr} {ks : List Node} {x : String} {at_ : Attr}
    (h : k.hasAttrs = true) (hf : findRemove (·.is x) as = some (at_, as')) :
    (Node.mk k as ks).findRemoveAttr x = some (at_, .mk k as' ks) := by
  simp [Node.findRemoveAttr, h, hf]

theorem findRemoveAttr_of_false {k : Kind} {as : List Attr} {ks : List Node} {x : String}
    (h : k.hasAttrs = false) : (Node.mk k as ks).findRemoveAttr x = none := by
  simp [Node.findRemoveAttr, h]

theorem findRemoveAttrs_fills {a c : Cx} {sc : Scope} (ht : Twin a c) {k k' : Kind} {as : List Attr}
    {ks ks' : List Node} (hb : blurK en k' = blurK en k) (hl : FillsL en ks' ks) :
    Fills en (findRemoveAttrs sc a (.mk k' as ks')).2 (findRemoveAttrs sc c (.mk k as ks)).2 ∧
      Twin (findRemoveAttrs sc a (.mk k' as ks')).1 (findRemoveAttrs sc c (.mk k as ks)).1 := by
  have hh := hasAttrs_blur hb
  unfold findRemoveAttrs
  split
  · exact ⟨.node hb hl, ht⟩
  · cases hk : k.hasAttrs with
    | false =>
      rw [hk] at hh
      simp only [findRemoveAttr_of_false hk, findRemoveAttr_of_false hh]
      exact ⟨.node hb hl, ht⟩
    | true =>
      rw [hk] at hh
      cases hf : findRemove (·.is NEVER) as with
      | none =>
        simp only [findRemoveAttr_of_none hk hf, findRemoveAttr_of_none hh hf]
        cases hr : findRemove (·.is "rec") as with
        | none =>
          simp only [findRemoveAttr_of_none hk hr, findRemoveAttr_of_none hh hr]
          exact ⟨.node hb hl, ht⟩
        | some p =>
          simp only [findRemoveAttr_of_some hk hr, findRemoveAttr_of_some hh hr]
          exact ⟨.node hb hl, ht.error _⟩
      | some p =>
        have hc : Twin (if p.1.form == .path then a else a.error .neverNotPath)
            (if p.1.form == .path then c else c.error .neverNotPath) := by
          split
          · exact ht
          · exact ht.error _
        simp only [findRemoveAttr_of_some hk hf, findRemoveAttr_of_some hh hf]
        cases hr : findRemove (·.is "rec") p.2 with
        | none =>
          simp only [findRemoveAttr_of_none hk hr, findRemoveAttr_of_none hh hr]
          exact ⟨.node hb hl, hc⟩
        | some p =>
          simp only [findRemoveAttr_of_some hk hr, findRemoveAttr_of_some hh hr]
          exact ⟨.node hb hl, hc.error _⟩

theorem visitMarker_other {sc : Scope} {cx : Cx} {k : Kind} {as : List Attr} {ks : List Node}
    (hk : ∀ p x, k ≠ .eMacro p x) : visitMarker sc cx (.mk k as ks) =
      (cx.assert (!sc.foreign || cx.marker != DEFAULT_MARKER) .markerForeign, .mk k as ks) := by
  unfold visitMarker
  dsimp only
  split
  · rename_i heq
    simp only [Node.mk.injEq] at heq
    exact absurd heq.1 (hk _ _)
  · rfl

theorem Twin.isMarkerExact {a c : Cx} (h : Twin a c) (p : Path) : a.isMarkerExact p = c.isMarkerExact p := by
  unfold Cx.isMarkerExact; rw [h.marker]

theorem visitMarker_fills {a c : Cx} {sc : Scope} (ht : Twin a c) (hi : c.ident = en) {k k' : Kind}
    {as : List Attr} {ks ks' : List Node} (hb : blurK en k' = blurK en k) (hl : FillsL en ks' ks)
    (hc : Clean (visitMarker sc a (.mk k' as ks')).1) :
    (∃ j j' bs js js', (visitMarker sc a (.mk k' as ks')).2 = .mk j' bs js' ∧
      (visitMarker sc c (.mk k as ks)).2 = .mk j bs js ∧ blurK en j' = blurK en j ∧ FillsL en js' js) ∧
      Twin (visitMarker sc a (.mk k' as ks')).1 (visitMarker sc c (.mk k as ks)).1 := by
  by_cases hm : ∃ p x, k = .eMacro p x
  · obtain ⟨p, x, rfl⟩ := hm
    have := blurK_rigid hb (by simp)
    subst this
    have ht' := ht.assert (!sc.foreign || a.marker != DEFAULT_MARKER) .markerForeign
    have hi' : (c.assert (!sc.foreign || a.marker != DEFAULT_MARKER) .markerForeign).ident = en := by
      unfold Cx.assert; split <;> exact hi
    unfold visitMarker at hc ⊢
    dsimp only at hc ⊢
    rw [← ht.marker]
    generalize a.assert (!sc.foreign || a.marker != DEFAULT_MARKER) .markerForeign = a' at *
    generalize c.assert (!sc.foreign || a.marker != DEFAULT_MARKER) .markerForeign = c' at *
    rw [ht'.isMarkerExact] at hc ⊢
    split
    · rename_i hex
      rw [if_pos hex] at hc
      cases ks with
      | nil => cases hl; exact absurd hc.1 (by simp [Cx.error])
      | cons s ss =>
        have hlen := fillsL_length hl
        cases ks' with
        | nil => cases hlen
        | cons n ns =>
          cases ss with
          | nil =>
            simp only [List.length_cons, List.length_nil, Nat.zero_add, Nat.add_eq_right, List.length_eq_zero_iff] at hlen
            subst hlen
            dsimp only at hc ⊢
            rw [ht'.hasError]
            have hce : c'.hasError = false := by
              rw [← ht'.hasError]
              rcases Bool.eq_false_or_eq_true a'.hasError with h | h
              · rw [h] at hc
                simp only [if_true] at hc
                rw [Cx.hasError, hc.1] at h
                cases h
              · exact h
            rw [hce]
            simp only [Bool.false_eq_true, if_false]
            refine ⟨⟨.eCall, .eCall, as, _, _, rfl, rfl, rfl, .cons (.node ?_ .nil) hl⟩, ht'.next _ _⟩
            rw [ht'.ident, hi']
            exact blurK_ctor _ _
          | cons s2 ss =>
            cases ns with
            | nil => cases hlen
            | cons n2 ns => exact absurd hc.1 (by simp [Cx.error])
    · exact ⟨⟨_, _, as, _, _, rfl, rfl, rfl, hl⟩, ht'⟩
  · have h0 : ∀ p x, k ≠ .eMacro p x := fun p x he => hm ⟨p, x, he⟩
    have h1 : ∀ p x, k' ≠ .eMacro p x := fun p x he => by
      subst he
      exact h0 _ _ (blurK_rigid hb.symm (by simp))
    rw [visitMarker_other h0, visitMarker_other h1, ht.marker]
    exact ⟨⟨_, _, _, _, _, rfl, rfl, hb, hl⟩, ht.assert _ _⟩

theorem post_fills {a c : Cx} {sc : Scope} (ht : Twin a c) (hi : c.ident = en) {k k' : Kind}
    {as : List Attr} {ks ks' : List Node} (hb : blurK en k' = blurK en k) (hl : FillsL en ks' ks)
    (hc : Clean (post .visitor sc a (.mk k' as ks')).1) :
    Fills en (post .visitor sc a (.mk k' as ks')).2 (post .visitor sc c (.mk k as ks)).2 ∧
      Twin (post .visitor sc a (.mk k' as ks')).1 (post .visitor sc c (.mk k as ks)).1 := by
  unfold post at hc ⊢
  dsimp only at hc ⊢
  rw [ht.marker] at hc ⊢
  split
  · rename_i hs
    rw [if_pos hs] at hc
    obtain ⟨⟨j, j', bs, js, js', h1, h2, h3, h4⟩, h5⟩ := visitMarker_fills ht hi hb hl (clean_findRemoveAttrs hc)
    rw [h1, h2]
    exact findRemoveAttrs_fills h5 h3 h4
  · exact ⟨.node hb hl, ht⟩

/-! ## Runs -/

theorem cut_sub {n s : Node} (h : Cut en n s) (hn : anyAttr n.rawAttrs NAME = false) :
    (∃ b, CutL en b n.sub s.sub) ∧ ∀ l l', FillsL en l l' →
      ∃ j j' bs js js', n.rebuild l = .mk j' bs js' ∧ s.rebuild l' = .mk j bs js ∧
        blurK en j' = blurK en j ∧ FillsL en js' js := by
  obtain ⟨k, k0, as, ks, ks0, rfl, rfl, hn⟩ := h.attrs hn
  rcases cut_mk h hn with ⟨heq, ho⟩ | ⟨k1, ks1, heq, h1, h2, h3, h4⟩
  · cases heq
    refine ⟨⟨false, by simp [Node.sub, ho, CutL.nil]⟩, fun l l' _ => ?_⟩
    have hf := fills_refl (en := en) (.mk k as ks)
    refine ⟨k, k, as, ks, ks, by simp [Node.rebuild, ho], by simp [Node.rebuild, ho], rfl, ?_⟩
    generalize ks = ks
    induction ks with
    | nil => exact .nil
    | cons x ks ih => exact .cons (fills_refl _) ih
  · cases heq
    have ho : k.isOpaque = false := by rw [isOpaque_blur h2]; exact h1
    exact ⟨⟨_, by simpa [Node.sub, ho, h1] using h4⟩, fun l l' hl =>
      ⟨k0, k, as, l', l, by simp [Node.rebuild, ho], by simp [Node.rebuild, h1], h2, hl⟩⟩

theorem apart_anyAttr {k : Kind} {as : List Attr} {ks : List Node} (h : apart k as = true) :
    (Node.mk k as ks).anyAttr NAME = true := by
  obtain ⟨h1, h2, h3, h4⟩ := apart_facts h
  unfold Node.anyAttr
  rw [Node.attrs.eq_def]
  split
  · rename_i heq; simp only [Node.mk.injEq] at heq; rw [heq.1] at h1; cases h1
  · rename_i heq; simp only [Node.mk.injEq] at heq; rw [← heq.1, ← heq.2.1, h2]; exact h4

theorem check_cut {n s : Node} (h : Cut en n s) (hn : anyAttr n.rawAttrs NAME = false) (sc : Scope) :
    sc.check n.kind = sc.check s.kind := by
  obtain ⟨k, k0, as, ks, ks0, rfl, rfl, hn⟩ := h.attrs hn
  rcases cut_mk h hn with ⟨heq, ho⟩ | ⟨k1, ks1, heq, h1, h2, h3, h4⟩
  · cases heq; rfl
  · cases heq
    simp only [Node.kind]
    by_cases hp : ∃ p, k0 = .ePath false p
    · obtain ⟨p, rfl⟩ := hp
      obtain ⟨p', rfl, _⟩ := blurK_path h2
      rfl
    · rw [blurK_rigid h2 fun p he => hp ⟨p, he⟩]

theorem check_foreign (sc : Scope) (k : Kind) : (sc.check k).foreign = sc.foreign := by
  unfold Scope.check
  split <;> rfl

theorem name_none {n : Node} (hn : anyAttr n.rawAttrs NAME = false) : n.findRemoveAttr NAME = none := by
  obtain ⟨k, as, ks⟩ := n
  unfold Node.findRemoveAttr
  dsimp only
  split
  · rw [findRemove_none.mpr (show as.any (·.is NAME) = false from hn)]
  · rfl

theorem Cut.rawAttrs {n s : Node} (h : Cut en n s) (hn : anyAttr n.rawAttrs NAME = false) :
    s.rawAttrs = n.rawAttrs := by
  obtain ⟨k, k0, as, ks, ks0, rfl, rfl, hn⟩ := h.attrs hn
  rfl

/-- A hole is left alone. -/
theorem hole_run {env : Env} {sc : Scope} {semi : Bool} {c : Cx} (hs : sc.foreign = false) (hc : Clean c) :
    Run env (expr .visitor sc semi c hole c hole) := by
  have h1 : hole.anyAttr NAME = false := rfl
  have h2 : enter .visitor sc hole = sc := rfl
  have h3 : pre .visitor sc c hole = (c, hole) := by
    have hm : visitMode sc c hole = (c, hole) := visitMode_other (by simp) (by simp)
    have hse : seen c hole = c := rfl
    unfold pre
    dsimp only
    rw [hse, hm]
    dsimp only
    unfold nestedStep
    rw [hs]
    rfl
  have h4 : post .visitor sc c hole = (c, hole) := by
    unfold post
    dsimp only
    rw [hs]
    simp only [Bool.not_false, Bool.true_or, if_true]
    have : visitMarker sc c hole = (c, hole) := by
      unfold hole
      rw [visitMarker_other (by simp), hs]
      rfl
    rw [this]
    unfold findRemoveAttrs
    rw [hs]
    rfl
  have := Run.plain (env := env) (vk := .visitor) (sc := sc) (semi := semi) (n := hole) (cx := c) (cx2 := c)
    (ks := []) hc (by rw [h2, h3]; exact hc) (fun h => by rw [h1] at h; cases h) (by rw [h2, h3]; rfl)
    (by rw [h2, h3]; exact .nil) hc (by rw [h2, h3]; exact (show Clean (post .visitor sc c hole).1 by rw [h4]; exact hc))
  rw [h2, h3] at this
  rw [show (c, hole).2.rebuild [] = hole from rfl, h4] at this
  exact this

theorem letHole_run {env : Env} {sc : Scope} {c : Cx} (hs : sc.foreign = false) (hc : Clean c) :
    Run env (one .visitor sc c letHole c letHole) := by
  have h3 : preSub .visitor sc c letHole = (c, letHole) := by
    unfold preSub
    dsimp only
    rw [hs]
    rfl
  have h4 : postSub .visitor sc c letHole = (c, letHole) := by
    unfold postSub findRemoveAttrs
    dsimp only
    rw [hs]
    rfl
  have := Run.part (env := env) (vk := .visitor) (sc := sc) (n := letHole) (cx := c) (cx2 := c) (ks := [])
    hc (by rw [h3]; exact hc) (by rw [h3]; exact .nil) hc
    (by rw [h3]; exact (show Clean (postSub .visitor sc c letHole).1 by rw [h4]; exact hc))
  rw [h3] at this
  rw [show (c, letHole).2.rebuild [] = letHole from rfl, h4] at this
  exact .oneLocal rfl rfl this

/-- The visit of the code with inner attributes cut out. -/
def Judg.Cuts (env : Env) (en : Ident) : Judg → Prop
  | one .visitor sc cx n cx' n' => sc.foreign = false → ∀ c s, Cut en n s → Twin cx c → c.ident = en →
      ∃ c' s', Run env (one .visitor sc c s c' s') ∧ Fills en n' s' ∧ Twin cx' c'
  | many .visitor sc cx ns cx' ns' => sc.foreign = false → ∀ b c ss, CutL en b ns ss → Twin cx c →
      c.ident = en → ∃ c' ss', Run env (many .visitor sc c ss c' ss') ∧ FillsL en ns' ss' ∧ Twin cx' c'
  | expr .visitor sc semi cx n cx' n' => sc.foreign = false → n.kind.isExpr = true → ∀ c s, Cut en n s →
      Twin cx c → c.ident = en →
      ∃ c' s', Run env (expr .visitor sc semi c s c' s') ∧ Fills en n' s' ∧ Twin cx' c'
  | part .visitor sc cx n cx' n' => sc.foreign = false → anyAttr n.rawAttrs NAME = false → ∀ c s, Cut en n s →
      Twin cx c → c.ident = en →
      ∃ c' s', Run env (part .visitor sc c s c' s') ∧ Fills en n' s' ∧ Twin cx' c'
  | _ => True

theorem onStmt_local {env : Env} {cx cx' : Cx} {p : LetPat} {n n' : Node} (hk : n.kind = .sLocal p)
    (h : Run env (onStmt cx n cx' n')) : ∃ p1 as1 ks1, n' = .mk (.sLocal p1) as1 ks1 := by
  obtain ⟨k, as, ks⟩ := n
  simp only [Node.kind] at hk
  subst hk
  cases h with
  | stmtLocalDummy => exact ⟨_, _, _, rfl⟩
  | stmtLocal => exact ⟨_, _, _, rfl⟩
  | stmtInert h1 h2 => exact absurd rfl (h2 _)

theorem let_run {env : Env} {sc : Scope} {cx cx' : Cx} {p : LetPat} {as : List Attr} {ks : List Node} {n' : Node}
    (h : Run env (one .visitor sc cx (.mk (.sLocal p) as ks) cx' n')) (hn : anyAttr as NAME = true) :
    Clean cx ∧ Clean cx' ∧ ∃ p1 as1 ks1, n' = .mk (.sLocal p1) as1 ks1 := by
  cases h with
  | oneExpr h => cases h
  | oneArm h => cases h
  | oneLocal h1 h2 => exact absurd (h2.symm.trans hn) (by simp)
  | oneBlock h1 h2 => cases h2
  | oneInert h1 h2 => exact absurd rfl (h2 _)
  | oneLocalChild h1 h2 h3 h4 h5 h6 h7 h8 h9 h10 h11 h12 h13 h14 =>
    refine ⟨h3, h13, ?_⟩
    have hk := h9.shape.1
    rw [(findRemoveAttr_sub h4).2.1] at hk
    exact onStmt_local hk h11

theorem cut_notHole {n s : Node} (h : Cut en n s) (hx : n.anyAttr NAME = false) :
    anyAttr n.rawAttrs NAME = false := by
  cases h with
  | hole h => rw [apart_anyAttr h] at hx; cases hx
  | inert _ h => exact h
  | node _ _ h => exact h

theorem Run.cuts {env : Env} {j : Judg} (h : Run env j) : j.Cuts env en := by
  induction h with
  | @nil vk sc cx =>
    cases vk with
    | dummy => trivial
    | visitor =>
      intro hs b c ss hl ht hi
      have := hl.length
      cases ss with
      | nil => exact ⟨c, [], .nil, .nil, ht⟩
      | cons => cases this
  | @cons vk sc cx n cx1 n' ns cx2 ns' h1 h2 ih1 ih2 =>
    cases vk with
    | dummy => trivial
    | visitor =>
      intro hs b c ss hl ht hi
      cases hl with
      | cons g1 g2 =>
        obtain ⟨c1, s1, r1, f1, t1⟩ := ih1 hs c _ g1 ht hi
        obtain ⟨c2, s2, r2, f2, t2⟩ := ih2 hs _ c1 _ g2 t1 (r1.keeps.ident.trans hi)
        exact ⟨c2, _, .cons r1 r2, .cons f1 f2, t2⟩
      | letHole g1 g2 g3 =>
        obtain ⟨e1, e2, p1, as1, ks1, rfl⟩ := let_run h1 g1
        have t1 : Twin cx1 c := (Twin.same h1.keeps e1 e2).trans ht
        obtain ⟨c2, s2, r2, f2, t2⟩ := ih2 hs _ c _ g3 t1 hi
        exact ⟨c2, _, .cons (letHole_run hs (ht.clean.mp e1)) r2, .letHole f2, t2⟩
  | @plain cx vk sc n cx2 ks semi h1 h2 h3 h4 h5 h6 h7 ih =>
    cases vk with
    | dummy => trivial
    | visitor =>
      intro hs hx c s hcut ht hi
      have hname : n.anyAttr NAME = false := by
        rcases Bool.eq_false_or_eq_true (n.anyAttr NAME) with h | h
        · obtain ⟨b, hb⟩ := h3 h
          rw [hb] at hx
          cases hx
        · exact h
      have hraw := cut_notHole hcut hname
      have hname' := (hcut.anyName hraw hx).2
      have he : enter .visitor sc n = sc.check n.kind := by
        unfold enter
        dsimp only
        rw [hname]
        rfl
      have he' : enter .visitor sc s = sc.check n.kind := by
        unfold enter
        dsimp only
        rw [hname', check_cut hcut hraw]
        rfl
      rw [he] at h2 h4 h5 h7 ih ⊢
      have hs' : (sc.check n.kind).foreign = false := (check_foreign _ _).trans hs
      obtain ⟨p1, p2, p3⟩ := pre_cut (sc := sc.check n.kind) ht hi hcut hraw hx
      obtain ⟨⟨b, q1⟩, q2⟩ := cut_sub p1 p3
      have hi1 : (pre .visitor (sc.check n.kind) c s).1.ident = en :=
        (pre_same .visitor (sc.check n.kind) c s).ident.trans hi
      obtain ⟨c2, ks2, r2, f2, t2⟩ := ih hs' b _ _ q1 p2 hi1
      obtain ⟨j, j', bs, js, js', e1, e2, e3, e4⟩ := q2 _ _ f2
      have hi2 : c2.ident = en := r2.keeps.ident.trans hi1
      rw [e1] at h7 ⊢
      obtain ⟨f3, t3⟩ := post_fills t2 hi2 e3 e4 h7
      have hrun := Run.plain (env := env) (vk := .visitor) (sc := sc) (semi := semi) (n := s) (cx := c) (cx2 := c2)
        (ks := ks2) (ht.clean.mp h1) (by rw [he']; exact p2.clean.mp h2)
        (fun h => by rw [hname'] at h; cases h)
        (by rw [he']; exact name_none (by rw [p1.rawAttrs p3]; exact p3))
        (by rw [he']; exact r2) (t2.clean.mp h6)
        (by rw [he', e2]; exact t3.clean.mp h7)
      rw [he', e2] at hrun
      exact ⟨_, _, hrun, f3, t3⟩
  | @child cx vk sc n attr n1 toks cx1 ch cx2 ks semi ch' n3 h1 h2 h3 h4 h5 h6 h7 h8 h9 h10 h11 h12 h13 h14 h15 _ _ =>
    cases vk with
    | dummy => trivial
    | visitor =>
      intro hs hx c s hcut ht hi
      have hwhole := Run.child h1 h2 h3 h4 h5 h6 h7 h8 h9 h10 h11 h12 h13 h14 h15
      have hshape := hwhole.shape hx
      have hkeep := hwhole.keeps
      cases hcut with
      | hole g =>
        exact ⟨c, hole, hole_run hs (ht.clean.mp h1), .hole (by rw [isExprNode_eq]; exact hshape),
          (Twin.same hkeep h1 h14).trans ht⟩
      | inert g1 g2 =>
        rw [anyAttr_mk (by rintro b rfl; cases hx) g2] at h3
        cases h3
      | node g1 g2 g3 =>
        rw [anyAttr_mk (by rintro b rfl; cases hx) g3] at h3
        cases h3
  | @part cx vk sc n cx2 ks h1 h2 h3 h4 h5 ih =>
    cases vk with
    | dummy => trivial
    | visitor =>
      intro hs hraw c s hcut ht hi
      obtain ⟨p1, p2, p3⟩ := preSub_cut (sc := sc) ht hi hcut hraw
      obtain ⟨⟨b, q1⟩, q2⟩ := cut_sub p1 p3
      have hi1 : (preSub .visitor sc c s).1.ident = en := (preSub_same .visitor sc c s).ident.trans hi
      obtain ⟨c2, ks2, r2, f2, t2⟩ := ih hs b _ _ q1 p2 hi1
      obtain ⟨j, j', bs, js, js', e1, e2, e3, e4⟩ := q2 _ _ f2
      rw [e1] at h5 ⊢
      obtain ⟨f3, t3⟩ := findRemoveAttrs_fills (sc := sc) t2 e3 e4
      have hrun := Run.part (env := env) (vk := .visitor) (sc := sc) (n := s) (cx := c) (cx2 := c2)
        (ks := ks2) (ht.clean.mp h1) (p2.clean.mp h2) r2 (t2.clean.mp h4)
        (by rw [e2]; exact t3.clean.mp h5)
      rw [e2] at hrun
      exact ⟨_, _, hrun, f3, t3⟩
  | @oneExpr vk sc cx n cx' n' hx _ ih =>
    cases vk with
    | dummy => trivial
    | visitor =>
      intro hs c s hcut ht hi
      obtain ⟨c', s', r, f, t⟩ := ih hs hx c s hcut ht hi
      exact ⟨c', s', .oneExpr (hcut.isExpr.symm.trans hx) r, f, t⟩
  | @oneStmt vk sc semi cx e cx' e' as _ ih =>
    cases vk with
    | dummy => trivial
    | visitor =>
      intro hs c s hcut ht hi
      cases hcut with
      | hole g => have := (apart_facts g).1; cases this
      | inert g => cases g
      | @node k _ _ ks _ g1 g2 g3 g4 g5 =>
        have := blurK_rigid g2.symm (by simp)
        subst this
        cases ks with
        | nil => have := g5.length; cases this
        | cons s ss =>
          obtain ⟨n1, ns1, heq, e1, e2⟩ := cutL_false g5
          simp only [List.cons.injEq] at heq
          obtain ⟨rfl, rfl⟩ := heq
          have := e2.length
          cases ss with
          | cons => cases this
          | nil =>
            have hx : s.kind.isExpr = true := g4.1 _ rfl s (by simp)
            obtain ⟨c', s', r, f, t⟩ := ih hs (e1.isExpr.trans hx) c s e1 ht hi
            exact ⟨c', _, .oneStmt r, .node rfl (.cons f .nil), t⟩
  | @oneArm vk sc cx n cx' n' p hk _ ih =>
    cases vk with
    | dummy => trivial
    | visitor =>
      intro hs c s hcut ht hi
      have hraw : anyAttr n.rawAttrs NAME = false := by
        cases hcut with
        | hole g => exact absurd hk (apart_noKid g _)
        | inert _ g => exact g
        | node _ _ g => exact g
      obtain ⟨c', s', r, f, t⟩ := ih hs hraw c s hcut ht hi
      refine ⟨c', s', .oneArm (p := p) ?_ r, f, t⟩
      obtain ⟨k, k0, as, ks, ks0, rfl, rfl, hn⟩ := hcut.attrs hraw
      simp only [Node.kind] at hk ⊢
      subst hk
      rcases cut_mk hcut hn with ⟨heq, ho⟩ | ⟨k1, ks1, heq, h1, h2, h3, h4⟩
      · cases heq; rfl
      · cases heq; exact blurK_rigid h2.symm (by simp)
  | @oneLocal vk sc cx n cx' n' p hk hname _ ih =>
    cases vk with
    | dummy => trivial
    | visitor =>
      intro hs c s hcut ht hi
      have hraw := cut_notHole hcut hname
      obtain ⟨c', s', r, f, t⟩ := ih hs hraw c s hcut ht hi
      refine ⟨c', s', .oneLocal (p := p) ?_ ?_ r, f, t⟩
      all_goals
        obtain ⟨k, k0, as, ks, ks0, rfl, rfl, hn⟩ := hcut.attrs hraw
        simp only [Node.kind] at hk ⊢
        subst hk
        rcases cut_mk hcut hn with ⟨heq, ho⟩ | ⟨k1, ks1, heq, h1, h2, h3, h4⟩
        · cases ho
        · cases heq
          have := blurK_rigid h2.symm (by simp)
          subst this
          first | rfl | exact anyAttr_mk (by simp) hn
  | @oneLocalChild cx attr n1 toks n cx1 ch vk sc cx2 n2 ch' n3 p hk hname h3 h4 h5 h6 h7 h8 h9 h10 h11 h12 h13 h14 _ _ =>
    cases vk with
    | dummy => trivial
    | visitor =>
      intro hs c s hcut ht hi
      cases hcut with
      | hole g =>
        have := (apart_facts g).1
        simp only [Node.kind] at hk
        subst hk
        cases this
      | inert _ g =>
        rw [anyAttr_mk (by rintro b rfl; cases hk) g] at hname
        cases hname
      | node _ _ g =>
        rw [anyAttr_mk (by rintro b rfl; cases hk) g] at hname
        cases hname
  | @oneBlock vk sc cx cx' ks n h1 h2 h3 _ ih =>
    cases vk with
    | dummy => trivial
    | visitor =>
      intro hs c s hcut ht hi
      have hraw : anyAttr n.rawAttrs NAME = false := by
        cases hcut with
        | hole g => exact absurd ((apart_facts g).1.symm.trans h1) (by simp)
        | inert _ g => exact g
        | node _ _ g => exact g
      obtain ⟨⟨b, q1⟩, q2⟩ := cut_sub hcut hraw
      obtain ⟨c2, ks2, r2, f2, t2⟩ := ih hs b _ _ q1 ht hi
      obtain ⟨j, j', bs, js, js', e1, e2, e3, e4⟩ := q2 _ _ f2
      have hkind : n.kind = s.kind := by
        obtain ⟨k, k0, as, ks, ks0, rfl, rfl, hn⟩ := hcut.attrs hraw
        simp only [Node.kind] at h1 ⊢
        rcases cut_mk hcut hn with ⟨heq, ho⟩ | ⟨k1, ks1, heq, g1, g2, g3, g4⟩
        · cases heq; rfl
        · cases heq
          exact (blurK_rigid g2.symm (by rintro p rfl; cases h1)).symm
      rw [hkind] at h1 h2 h3
      have hrun := Run.oneBlock h1 h2 h3 r2
      rw [e2] at hrun
      rw [e1]
      exact ⟨_, _, hrun, .node e3 e4, t2⟩
  | @oneInert n cx vk sc h1 h2 h3 h4 =>
    cases vk with
    | dummy => trivial
    | visitor =>
      intro hs c s hcut ht hi
      have hraw : anyAttr n.rawAttrs NAME = false := by
        cases hcut with
        | @hole k _ _ g =>
          have := (apart_facts g).1
          simp only [Node.kind] at h1
          cases k <;> first | (cases h1; done) | (cases this; done)
        | inert _ g => exact g
        | node _ _ g => exact g
      have hf := Cut.fills _ _ hcut
      refine ⟨seen c s, s, .oneInert ?_ ?_ ?_ (ht.clean.mp h4), hf, (seen_twin _ _).trans (ht.trans (seen_twin _ _).symm)⟩
      all_goals
        obtain ⟨k, k0, as, ks, ks0, rfl, rfl, hn⟩ := hcut.attrs hraw
        rcases cut_mk hcut hn with ⟨heq, ho⟩ | ⟨k1, ks1, heq, g1, g2, g3, g4⟩
      · cases heq; exact h1
      · cases heq
        have := blurK_rigid g2.symm (by rintro p rfl; cases h1)
        subst this
        exact h1
      · cases heq; exact h2
      · cases heq
        have := blurK_rigid g2.symm (by rintro p rfl; cases h1)
        subst this
        exact h2
      · cases heq; exact h3
      · cases heq
        have := blurK_rigid g2.symm (by rintro p rfl; cases h1)
        subst this
        intro b as' e he
        simp only [Node.mk.injEq] at he
        obtain ⟨rfl, rfl, rfl⟩ := he
        obtain ⟨m, ms, rfl, f1, f2⟩ := cutL_false g4
        cases f2
        exact h3 _ _ _ rfl
  | _ => trivial

end AutoEnums
