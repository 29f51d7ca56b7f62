import Verif.Spec.Outline
import Verif.Lemmas.Whole

/-! # Cutting out inner attributes: analysis -/

namespace AutoEnums

open Spec

/-- What the decisions depend on. -/
def Cx.forget (cx : Cx) : Cx := { cx with variants := [], hasChild := false, log := [] }

/-- The contexts agree except for variants and the record of inner attributes. -/
def Twin (a c : Cx) : Prop := a.forget = c.forget

namespace Twin

variable {a c : Cx}

theorem ident (h : Twin a c) : a.ident = c.ident := by
  have := congrArg (fun x : Cx => x.ident) (show a.forget = c.forget from h); exact this
theorem marker (h : Twin a c) : a.marker = c.marker := by
  have := congrArg (fun x : Cx => x.marker) (show a.forget = c.forget from h); exact this
theorem markers (h : Twin a c) : a.markers = c.markers := by
  have := congrArg (fun x : Cx => x.markers) (show a.forget = c.forget from h); exact this
theorem root (h : Twin a c) : a.root = c.root := by
  have := congrArg (fun x : Cx => x.root) (show a.forget = c.forget from h); exact this
theorem mode (h : Twin a c) : a.mode = c.mode := by
  have := congrArg (fun x : Cx => x.mode) (show a.forget = c.forget from h); exact this
theorem lastMode (h : Twin a c) : a.lastMode = c.lastMode := by
  have := congrArg (fun x : Cx => x.lastMode) (show a.forget = c.forget from h); exact this
theorem errs (h : Twin a c) : a.errs = c.errs := by
  have := congrArg (fun x : Cx => x.errs) (show a.forget = c.forget from h); exact this
theorem panics (h : Twin a c) : a.panics = c.panics := by
  have := congrArg (fun x : Cx => x.panics) (show a.forget = c.forget from h); exact this
theorem args (h : Twin a c) : a.args = c.args := by
  have := congrArg (fun x : Cx => x.args) (show a.forget = c.forget from h); exact this
theorem traits (h : Twin a c) : a.traits = c.traits := by
  have := congrArg (fun x : Cx => x.traits) (show a.forget = c.forget from h); exact this

theorem isMarker (h : Twin a c) (p : Path) : a.isMarker p = c.isMarker p := by
  unfold Cx.isMarker Cx.isMarkerExact
  rw [h.marker, h.root, h.markers]

theorem visitLast (h : Twin a c) : a.visitLast = c.visitLast := by
  unfold Cx.visitLast
  rw [h.lastMode, h.mode]

theorem clean (h : Twin a c) : Clean a ↔ Clean c := by
  unfold Clean; rw [h.errs, h.panics]

theorem hasError (h : Twin a c) : a.hasError = c.hasError := by
  unfold Cx.hasError; rw [h.errs]

theorem error (h : Twin a c) (e : Err) : Twin (a.error e) (c.error e) := by
  unfold Twin Cx.forget Cx.error at *
  simp only [Cx.mk.injEq] at h ⊢
  simp [h]

theorem panic (h : Twin a c) (p : Panic) : Twin (a.panic p) (c.panic p) := by
  unfold Twin Cx.forget Cx.panic at *
  simp only [Cx.mk.injEq] at h ⊢
  simp [h]

theorem assert (h : Twin a c) (b : Bool) (p : Panic) : Twin (a.assert b p) (c.assert b p) := by
  unfold Cx.assert; split
  · exact h
  · exact h.panic p

theorem next (h : Twin a c) (u v : List Ident) : Twin { a with variants := u } { c with variants := v } := h

/-- Contexts that differ from the second ones in variants only. -/
theorem left {a' : Cx} (h : Twin a c) (h' : Twin a' a) : Twin a' c := Eq.trans h' h

end Twin

/-- Some demands of the grammar. -/
def KidKinds (k : Kind) (ks : List Node) : Prop :=
  (∀ b, k = .sExpr b → ∀ e ∈ ks, e.kind.isExpr = true) ∧
  (k = .eIf → ∀ e ∈ ks.drop 2, e.kind ≠ .eContinue (some ""))

theorem KidKinds.congr {k : Kind} {ks ks' : List Node} (h : KidKinds k ks)
    (hk : ks'.map Node.kind = ks.map Node.kind) : KidKinds k ks' := by
  refine ⟨fun b hb e he => ?_, fun hb e he => ?_⟩
  · have := List.mem_map_of_mem (f := Node.kind) he
    rw [hk] at this
    obtain ⟨x, hx1, hx2⟩ := List.mem_map.mp this
    rw [← hx2]
    exact h.1 b hb x hx1
  · have := List.mem_map_of_mem (f := Node.kind) he
    rw [List.map_drop, hk, ← List.map_drop] at this
    obtain ⟨x, hx1, hx2⟩ := List.mem_map.mp this
    rw [← hx2]
    exact h.2 hb x hx1

mutual
/-- The second tree is the first one, not yet visited, with the inputs of inner attributes cut out. -/
inductive Cut (en : Ident) : Node → Node → Prop where
  | hole {k : Kind} {as : List Attr} {ks : List Node} :
      apart k as = true → Cut en (.mk k as ks) hole
  | inert {k : Kind} {as : List Attr} {ks : List Node} :
      k.isOpaque = true → anyAttr as NAME = false → Cut en (.mk k as ks) (.mk k as ks)
  | node {k k' : Kind} {as : List Attr} {ks ks' : List Node} :
      k.isOpaque = false → blurK en k' = blurK en k → anyAttr as NAME = false →
      KidKinds k ks → CutL en k.isBlockLike ks' ks →
      Cut en (.mk k' as ks') (.mk k as ks)
inductive CutL (en : Ident) : Bool → List Node → List Node → Prop where
  | nil : CutL en b [] []
  | cons : Cut en n s → CutL en b ns ss → CutL en b (n :: ns) (s :: ss)
  | letHole : anyAttr as NAME = true → ss ≠ [] → CutL en true ns ss →
      CutL en true (.mk (.sLocal p) as ks :: ns) (letHole :: ss)
end

variable {en : Ident}

theorem isExpr_isExpression' {k : Kind} (h : isExpression k = true) : k.isExpr = true := by
  cases k <;> first | rfl | cases h

theorem apart_iff {k : Kind} {as : List Attr} (h : apart k as = true) :
    isExpression k = true ∧ anyAttr as NAME = true ∧ (∀ q p, k ≠ .ePath q p) ∧ k ≠ .eCall ∧
      ∀ p t, k ≠ .eMacro p t := by
  have hn : as.any (named "auto_enum") = anyAttr as NAME := by
    unfold anyAttr
    congr 1
    funext a
    exact named_iff _ _
  unfold apart at h
  split at h
  · cases h
  · cases h
  · cases h
  · rename_i h1 h2 h3
    rw [Bool.and_eq_true, hn] at h
    exact ⟨h.1, h.2, fun q p he => h1 _ _ he, fun he => h2 he, fun p t he => h3 _ _ he⟩

theorem apart_facts {k : Kind} {as : List Attr} (h : apart k as = true) :
    k.isExpr = true ∧ k.hasAttrs = true ∧ k.isOpaque = false ∧ anyAttr as NAME = true := by
  obtain ⟨h1, h2, _, _, h5⟩ := apart_iff h
  refine ⟨isExpr_isExpression' h1, isExpression_hasAttrs h1, ?_, h2⟩
  cases k <;> first | exact absurd rfl (h5 _ _) | rfl | (cases h1; done)

theorem Cut.isExpr {n s : Node} (h : Cut en n s) : n.kind.isExpr = s.kind.isExpr := by
  cases h with
  | hole h => exact (apart_facts h).1
  | inert => rfl
  | node _ h => exact isExpr_blur h

theorem CutL.length {b : Bool} {ns ss : List Node} (h : CutL en b ns ss) : ns.length = ss.length := by
  induction ss generalizing ns with
  | nil => cases h; rfl
  | cons s ss ih => cases h <;> simp [ih ‹_›]

theorem isMarkerExpr_cut {a c : Cx} (ht : Twin a c) {n s : Node} (h : Cut en n s) :
    a.isMarkerExpr n = c.isMarkerExpr s := by
  cases h with
  | @hole k as ks h =>
    obtain ⟨_, _, _, _, h5⟩ := apart_iff h
    unfold Cx.isMarkerExpr
    split
    · rename_i heq; simp only [Node.mk.injEq] at heq; exact absurd heq.1 (h5 _ _)
    · rfl
  | inert =>
    unfold Cx.isMarkerExpr
    split
    · exact ht.isMarker _
    · rfl
  | @node k k' as ks ks' ho hb _ _ _ =>
    have ho' : k'.isOpaque = false := by rw [isOpaque_blur hb]; exact ho
    unfold Cx.isMarkerExpr
    split
    · rename_i heq; simp only [Node.mk.injEq] at heq; rw [heq.1] at ho'; cases ho'
    · split
      · rename_i heq; simp only [Node.mk.injEq] at heq; rw [heq.1] at ho; cases ho
      · rfl

theorem isNoneOrErr_path {p p' : Path} (h : p' = p ∨ p'.segs.length = 2 ∧ p.segs.length = 2)
    (l : List String) (hl : l.length = 3) : pathEq p' ["std", "core"] l = pathEq p ["std", "core"] l := by
  rcases h with rfl | ⟨h1, h2⟩
  · rfl
  · unfold pathEq
    simp [h1, h2, hl]

theorem isNoneOrErr_cut {n s : Node} (h : Cut en n s) : isNoneOrErr n = isNoneOrErr s := by
  have hno : ∀ {k : Kind} {as : List Attr} {ks : List Node}, (∀ p, k ≠ .ePath false p) → k ≠ .eCall →
      isNoneOrErr (.mk k as ks) = false := by
    intro k as ks h1 h2
    unfold isNoneOrErr
    split
    · rename_i heq; simp only [Node.mk.injEq] at heq; exact absurd heq.1 (h1 _)
    · rename_i heq; simp only [Node.mk.injEq] at heq; exact absurd heq.1 h2
    · rfl
  cases h with
  | @hole k as ks h =>
    obtain ⟨_, _, h3, h4, _⟩ := apart_iff h
    rw [hno (h3 _) h4]
    rfl
  | inert => rfl
  | @node k k' as ks ks' ho hb _ _ hl =>
    by_cases hp : ∃ p, k = .ePath false p
    · obtain ⟨p, rfl⟩ := hp
      obtain ⟨p', rfl, h1⟩ := blurK_path hb
      unfold isNoneOrErr
      exact isNoneOrErr_path h1 _ rfl
    · have := blurK_rigid hb fun p he => hp ⟨p, he⟩
      subst this
      by_cases hq : k' = .eCall
      · subst hq
        cases hl with
        | nil => rfl
        | cons h1 h2 =>
          cases h2 with
          | nil => simp [isNoneOrErr]
          | cons h3 h4 =>
            cases h4 with
            | cons h5 h6 => simp [isNoneOrErr]
            | nil =>
              cases h1 with
              | @hole k as ks h =>
                obtain ⟨_, _, h3, h4, _⟩ := apart_iff h
                unfold isNoneOrErr
                split
                · rename_i heq; cases heq
                · rename_i heq; simp only [Node.mk.injEq, List.cons.injEq] at heq
                  exact absurd heq.2.2.1.1 (h3 _ _)
                · rfl
              | @inert k _ _ ho => cases k <;> first | (cases ho; done) | rfl
              | @node j j' bs js js' ho' hb' _ _ hl' =>
                by_cases hp' : ∃ p, j = .ePath false p
                · obtain ⟨p, rfl⟩ := hp'
                  obtain ⟨p', rfl, h1⟩ := blurK_path hb'
                  unfold isNoneOrErr
                  exact isNoneOrErr_path h1 _ rfl
                · have := blurK_rigid hb' fun p he => hp' ⟨p, he⟩
                  subst this
                  unfold isNoneOrErr
                  split
                  · rename_i heq; cases heq
                  · rename_i heq
                    simp only [Node.mk.injEq, List.cons.injEq] at heq
                    exact absurd ⟨_, heq.2.2.1.1⟩ hp'
                  · split
                    · rename_i heq; cases heq
                    · rename_i heq
                      simp only [Node.mk.injEq, List.cons.injEq] at heq
                      exact absurd ⟨_, heq.2.2.1.1⟩ hp'
                    · rfl
      · have h1 : ∀ p, k' ≠ .ePath false p := fun p he => hp ⟨p, he⟩
        rw [hno h1 hq, hno h1 hq]

theorem findNested_apart {k : Kind} {as : List Attr} {ks : List Node} (h : anyAttr as NAME = true)
    (ho : k.isOpaque = false) (hk : isExpression k = true ∨ ∃ p, k = .sLocal p) :
    findNested (.mk k as ks) = false := by
  rw [findNested.eq_def]
  dsimp only
  rw [ho, if_neg (by simp)]
  rcases hk with hk | ⟨p, rfl⟩
  · cases k <;> first | (cases hk; done) | simp [h]
  · simp [h]

theorem findNested_cut : ∀ (s n : Node), Cut en n s → findNested n = findNested s := by
  intro s
  induction s using Node.ind with
  | h k as ks ih =>
  have hl : ∀ (b : Bool) (ss ns : List Node), (∀ x ∈ ss, x ∈ ks) → CutL en b ns ss →
      findNestedL ns = findNestedL ss := by
    intro b ss
    induction ss with
    | nil => intro ns _ h; cases h; rfl
    | cons s ss ih2 =>
      intro ns hx h
      cases h with
      | cons h1 h2 =>
        rw [findNestedL, findNestedL, ih _ (hx _ (by simp)) _ h1,
          ih2 _ (fun x hx' => hx _ (by simp [hx'])) h2]
      | letHole h1 h2 h3 =>
        rw [findNestedL, findNestedL, findNested_apart h1 rfl (.inr ⟨_, rfl⟩),
          ih2 _ (fun x hx' => hx _ (by simp [hx'])) h3]
        rfl
  intro n h
  cases h with
  | hole h =>
    obtain ⟨h1, h2, _⟩ := apart_iff h
    rw [findNested_apart h2 (apart_facts h).2.2.1 (.inl h1)]
    rfl
  | inert => rfl
  | @node k k' as ks ks' ho hb hn _ hl' =>
    have := hl _ _ _ (fun _ h => h) hl'
    have ho' : k'.isOpaque = false := by rw [isOpaque_blur hb]; exact ho
    rw [findNested.eq_def, findNested.eq_def]
    dsimp only
    rw [ho', ho, if_neg (by simp), if_neg (by simp), this]
    by_cases hp : ∃ p, k = .ePath false p
    · obtain ⟨p, rfl⟩ := hp
      obtain ⟨p', rfl, h1⟩ := blurK_path hb
      rfl
    · have := blurK_rigid hb fun p he => hp ⟨p, he⟩
      subst this
      rfl

theorem findNestedL_cut {b : Bool} {ns ss : List Node} (h : CutL en b ns ss) :
    findNestedL ns = findNestedL ss := by
  induction ss generalizing ns with
  | nil => cases h; rfl
  | cons s ss ih =>
    cases h with
    | cons h1 h2 => rw [findNestedL, findNestedL, findNested_cut _ _ h1, ih h2]
    | letHole h1 h2 h3 =>
      rw [findNestedL, findNestedL, findNested_apart h1 rfl (.inr ⟨_, rfl⟩), ih h3]
      rfl

theorem isUnreachableMacro_twin {a c : Cx} (ht : Twin a c) (p : Path) :
    isUnreachableMacro a p = isUnreachableMacro c p := by
  unfold isUnreachableMacro; rw [ht.isMarker]

theorem cutL_false {ns ss : List Node} {s : Node} (h : CutL en false ns (s :: ss)) :
    ∃ n ns', ns = n :: ns' ∧ Cut en n s ∧ CutL en false ns' ss := by
  cases h with
  | cons h1 h2 => exact ⟨_, _, rfl, h1, h2⟩

theorem cutL_nil {b : Bool} {ns : List Node} (h : CutL en b ns []) : ns = [] := by cases h; rfl

theorem isUnreachable_cut {a c : Cx} (ht : Twin a c) : ∀ (s n : Node), Cut en n s →
    isUnreachable a n = isUnreachable c s := by
  intro s
  induction s using Node.strongInd with
  | h s ih =>
  have hlast : ∀ (ss ns : List Node), (∀ x ∈ ss, sizeOf x < sizeOf s) → CutL en true ns ss →
      isUnreachableLast a ns = isUnreachableLast c ss := by
    intro ss
    induction ss with
    | nil => intro ns _ h; cases h; rfl
    | cons s1 ss ih2 =>
      intro ns hx h
      have hs1 := hx s1 (by simp)
      cases ss with
      | nil =>
        cases h with
        | letHole _ h2 => exact absurd rfl h2
        | cons h1 h2 =>
          cases h2
          cases h1 with
          | @hole k as ks h =>
            have := (apart_facts h).1
            rw [isUnreachableLast.eq_def, isUnreachableLast.eq_def]
            cases k <;> first | rfl | (cases this; done)
          | @inert k as ks ho hn =>
            cases k <;> first | (cases ho; done) | rfl | exact isUnreachableMacro_twin ht _
          | @node k k' as ks ks' ho hb hn he hl =>
            by_cases hp : ∃ p, k = .ePath false p
            · obtain ⟨p, rfl⟩ := hp
              obtain ⟨p', rfl, h1⟩ := blurK_path hb
              rfl
            · have := blurK_rigid hb fun p he => hp ⟨p, he⟩
              subst this
              cases k' with
              | sExpr b =>
                cases ks with
                | nil => cases hl; rfl
                | cons e ks =>
                  obtain ⟨n, ns, rfl, h3, h4⟩ := cutL_false hl
                  cases ks with
                  | nil =>
                    cases h4
                    simp only [isUnreachableLast]
                    exact ih e (by simp at hs1 ⊢; omega) _ h3
                  | cons e2 ks =>
                    obtain ⟨n2, ns2, rfl, h5, h6⟩ := cutL_false h4
                    simp [isUnreachableLast]
              | sLocal p =>
                cases ks with
                | nil => cases hl; rfl
                | cons e ks =>
                  obtain ⟨n, ns, rfl, h3, h4⟩ := cutL_false hl
                  simp only [isUnreachableLast]
                  exact ih e (by simp at hs1 ⊢; omega) _ h3
              | sItem => cases ho
              | sMacro => cases ho
              | _ => rfl
      | cons s2 ss =>
        have ih3 := ih2
        cases h with
        | letHole h1 h2 h3 =>
          have := ih3 _ (fun x hx' => hx x (by simp at hx' ⊢; right; exact hx')) h3
          cases h3 with
          | cons _ _ => rw [isUnreachableLast, this]; rfl
          | letHole _ _ _ => rw [isUnreachableLast, this]; rfl
        | cons h1 h3 =>
          have := ih3 _ (fun x hx' => hx x (by simp at hx' ⊢; right; exact hx')) h3
          cases h3 with
          | cons _ _ => rw [isUnreachableLast, this]; simp only [isUnreachableLast]
          | letHole _ _ _ => rw [isUnreachableLast, this]; simp only [isUnreachableLast]
  have harms : ∀ (ss ns : List Node), (∀ x ∈ ss, sizeOf x < sizeOf s) → CutL en false ns ss →
      isUnreachableArms a ns = isUnreachableArms c ss := by
    intro ss
    induction ss with
    | nil => intro ns _ h; cases h; rfl
    | cons s1 ss ih2 =>
      intro ns hx h
      have hs1 := hx s1 (by simp)
      obtain ⟨n, ns, rfl, h1, h2⟩ := cutL_false h
      have ih3 := ih2 _ (fun x hx' => hx x (by simp [hx'])) h2
      cases h1 with
      | @hole k as ks h0 =>
        have := (apart_facts h0).1
        rw [isUnreachableArms.eq_def, isUnreachableArms.eq_def]
        cases k <;> first | (cases this; done) | rfl
      | @inert k as ks ho hn =>
        cases k <;> first | (cases ho; done) | rfl
      | @node k k' as ks ks' ho hb hn he hl =>
        by_cases hp : ∃ p, k = .ePath false p
        · obtain ⟨p, rfl⟩ := hp
          obtain ⟨p', rfl, h1⟩ := blurK_path hb
          rfl
        · have := blurK_rigid hb fun p he => hp ⟨p, he⟩
          subst this
          cases k' with
          | arm p =>
            cases ks with
            | nil => cases hl; rfl
            | cons e ks =>
              obtain ⟨n, ns, rfl, h3, h4⟩ := cutL_false hl
              cases ks with
              | nil =>
                cases h4
                simp only [isUnreachableArms, ih3]
                rw [ih e (by simp at hs1 ⊢; omega) _ h3]
              | cons e2 ks =>
                obtain ⟨n2, ns2, rfl, h5, h6⟩ := cutL_false h4
                cases ks with
                | nil =>
                  cases h6
                  simp only [isUnreachableArms, ih3]
                  rw [ih e2 (by simp at hs1 ⊢; omega) _ h5]
                | cons e3 ks =>
                  obtain ⟨n3, ns3, rfl, h7, h8⟩ := cutL_false h6
                  simp [isUnreachableArms]
          | _ => rfl
  intro n h
  cases h with
  | @hole k as ks h =>
    obtain ⟨_, h2, _, h4⟩ := apart_facts h
    rw [isUnreachable.eq_def]
    dsimp only
    rw [h2, h4]
    simp [isUnreachable, hole]
  | @inert k as ks ho hn =>
    rw [isUnreachable.eq_def, isUnreachable.eq_def]
    dsimp only
    congr 1
    cases k <;> first | (cases ho; done) | rfl | exact isUnreachableMacro_twin ht _
  | @node k k' as ks ks' ho hb hn he hl =>
    have hmem : ∀ x ∈ ks, sizeOf x < sizeOf (Node.mk k as ks) := fun x hx => Node.sizeOf_kid hx
    rw [isUnreachable.eq_def, isUnreachable.eq_def]
    dsimp only
    by_cases hp : ∃ p, k = .ePath false p
    · obtain ⟨p, rfl⟩ := hp
      obtain ⟨p', rfl, h1⟩ := blurK_path hb
      rfl
    · have := blurK_rigid hb fun p he => hp ⟨p, he⟩
      subst this
      congr 1
      cases k' with
      | eBlock l => exact hlast _ _ hmem hl
      | eUnsafe => exact hlast _ _ hmem hl
      | eMatch =>
        cases ks with
        | nil => cases hl; rfl
        | cons e ks =>
          obtain ⟨n, ns, rfl, h3, h4⟩ := cutL_false hl
          exact harms _ _ (fun x hx => hmem x (by simp [hx])) h4
      | eTry =>
        cases ks with
        | nil => cases hl; rfl
        | cons e ks =>
          obtain ⟨n, ns, rfl, h3, h4⟩ := cutL_false hl
          cases ks with
          | nil => cases h4; exact isNoneOrErr_cut h3
          | cons e2 ks => obtain ⟨n2, ns2, rfl, h5, h6⟩ := cutL_false h4; rfl
      | eMethodCall m =>
        cases ks with
        | nil => cases hl; rfl
        | cons e ks =>
          obtain ⟨n, ns, rfl, h3, h4⟩ := cutL_false hl
          exact ih e (hmem e (by simp)) _ h3
      | eParen =>
        cases ks with
        | nil => cases hl; rfl
        | cons e ks =>
          obtain ⟨n, ns, rfl, h3, h4⟩ := cutL_false hl
          cases ks with
          | nil => cases h4; exact ih e (hmem e (by simp)) _ h3
          | cons e2 ks => obtain ⟨n2, ns2, rfl, h5, h6⟩ := cutL_false h4; rfl
      | eMacro => cases ho
      | _ => rfl

theorem isUnreachableLast_cut {a c : Cx} (ht : Twin a c) {ns ss : List Node} (h : CutL en true ns ss) :
    isUnreachableLast a ns = isUnreachableLast c ss := by
  have := isUnreachable_cut (en := en) ht (.mk (.eBlock none) [] ss) (.mk (.eBlock none) [] ns)
    (.node rfl rfl rfl (by simp [KidKinds]) h)
  rw [isUnreachable.eq_def, isUnreachable.eq_def] at this
  simpa [anyEmptyAttr, anyAttr] using this

end AutoEnums
