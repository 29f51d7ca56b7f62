import Verif.Lemmas.Pend

/-! # The predicates of the code on pending trees -/

namespace AutoEnums

open Spec

theorem marked_eq (s : String) (as : List Attr) : marked s as = anyEmptyAttr as s := by
  unfold marked anyEmptyAttr
  congr 1
  funext a
  simp [Attr.isEmpty, ← named_iff]

theorem isExpression_eq (k : Kind) : isExpression k = (k.isExpr && k.hasAttrs) := by
  cases k <;> rfl

/-- The kinds whose divergence depends on their kids or is certain. -/
def special : Kind → Bool
  | .eBlock _ | .eUnsafe | .eBreak _ | .eContinue _ | .eReturn | .eMacro _ _ | .eMatch | .eTry
  | .eMethodCall _ | .eParen => true
  | _ => false

theorem isUnreachable_other {cx : Cx} {k : Kind} {as : List Attr} {ks : List Node}
    (h : special k = false) (hn : anyAttr as NAME = false) :
    isUnreachable cx (.mk k as ks) = (k.hasAttrs && anyEmptyAttr as NEVER) := by
  unfold isUnreachable
  rw [hn]
  cases k <;> first | (simp [special] at h; done) | simp

theorem diverges_other {m : String} {k : Kind} {as : List Attr} {ks : List Node}
    (h : special k = false) : diverges m (.mk k as ks) = (k.hasAttrs && anyEmptyAttr as NEVER) := by
  unfold diverges
  rw [marked_eq]
  cases k <;> first | (simp [special] at h; done) | simp [NEVER]

theorem isNoneOrErr_eq {J : Job} {o t : Node} (h : Raw J o t) : isNoneOrErr t = failing o := by
  have hpath : ∀ {p p' : Path}, (p' = p ∨ p'.segs.length = 2 ∧ p.segs.length = 2) →
      ∀ l, (∀ x ∈ l, x.length ≠ 2) → isOneOf l p' = isOneOf l p := by
    rintro p p' (rfl | ⟨h1, h2⟩) l hl
    · rfl
    · have : ∀ p : Path, p.segs.length = 2 → isOneOf l p = false := by
        intro p hp
        unfold isOneOf
        rw [List.contains_eq_mem, decide_eq_false_iff_not]
        intro hm
        exact hl _ hm (by simp [hp])
      rw [this _ h1, this _ h2]
  have e1 := fun p => pathEq_std p ["option", "Option"] "None"
  have e2 := fun p => pathEq_std p ["result", "Result"] "Err"
  simp only [List.cons_append, List.nil_append] at e1 e2
  cases o with
  | mk k as ks =>
    obtain ⟨k', tks, rfl, hk⟩ := h.top
    by_cases hp : ∃ p, k = .ePath false p
    · obtain ⟨p, rfl⟩ := hp
      obtain ⟨p', rfl, hp'⟩ := blurK_path hk
      simp only [isNoneOrErr, failing, e1]
      exact hpath hp' _ (by decide)
    · have hr := blurK_rigid hk (fun p hp' => hp ⟨p, hp'⟩)
      subst hr
      by_cases hc : k' = .eCall
      · subst hc
        obtain ⟨tks', h1, h2⟩ := h.inv' (by simp) rfl (by simp)
        cases h1
        cases h2 with
        | nil => rfl
        | @cons a b l l' hab hl =>
          cases hl with
          | nil =>
            unfold isNoneOrErr failing
            split <;> split <;> simp_all
          | @cons c d l2 l2' hcd hl2 =>
            cases hl2 with
            | cons => 
              unfold isNoneOrErr failing
              split <;> split <;> simp_all
            | nil =>
              cases a with
              | mk ka aa ka' =>
                obtain ⟨kb, tb, rfl, hkb⟩ := hab.top
                by_cases hp : ∃ p, ka = .ePath false p
                · obtain ⟨p, rfl⟩ := hp
                  obtain ⟨p', rfl, hp'⟩ := blurK_path hkb
                  simp only [isNoneOrErr, failing, e2]
                  exact hpath hp' _ (by decide)
                · have hr := blurK_rigid hkb (fun p hp' => hp ⟨p, hp'⟩)
                  subst hr
                  unfold isNoneOrErr failing
                  split <;> split <;> simp_all
      · unfold isNoneOrErr failing
        split <;> split <;> simp_all

theorem unreachable_eq {J : Job} {cx : Cx} (hr : cx.root = true) : ∀ o,
    hasAttr NAME o = false → ∀ t, Raw J o t → isUnreachable cx t = diverges cx.marker o := by
  intro o
  induction o using Node.strongInd with
  | h n ih =>
    intro hf t ht
    cases n with
    | mk k as ks =>
    rw [hasAttr_mk, Bool.or_eq_false_iff] at hf
    obtain ⟨hn, hf⟩ := hf
    -- the last statement
    have hlast : ∀ l tl, (∀ c ∈ l, sizeOf c < sizeOf (Node.mk k as ks)) → hasAttrL NAME l = false →
        Aligned (Raw J) l tl → isUnreachableLast cx tl = divergesLast cx.marker l := by
      intro l
      induction l with
      | nil => intro tl _ _ ha; cases ha; simp [isUnreachableLast, divergesLast]
      | cons s l ihl =>
        intro tl hm hfl ha
        simp only [hasAttrL_cons, Bool.or_eq_false_iff] at hfl
        cases ha with
        | @cons _ b _ l' hsb hl =>
        cases hl with
        | @cons c d l2 l2' hcd hl2 =>
          have := ihl (d :: l2') (fun x hx => hm x (by simp [hx])) hfl.2 (.cons hcd hl2)
          unfold isUnreachableLast divergesLast
          simpa using this
        | nil =>
          have hms := hm s (by simp)
          cases s with
          | mk ks' as' kk =>
          have hkid : ∀ e ∈ kk, sizeOf e < sizeOf (Node.mk k as ks) := by
            intro e he
            have := List.sizeOf_lt_of_mem he
            simp only [Node.mk.sizeOf_spec] at hms ⊢
            omega
          have hfr := hfl.1
          rw [hasAttr_mk, Bool.or_eq_false_iff] at hfr
          by_cases hbk : ∃ l, ks' = .eBreak l
          · obtain ⟨x, rfl⟩ := hbk
            obtain ⟨k2, tks, rfl, hk2⟩ := hsb.top
            have := blurK_rigid hk2 (by simp)
            subst this
            simp [isUnreachableLast, divergesLast]
          by_cases hop : ks'.isOpaque = true
          · obtain ⟨k2, tks, rfl, hk2⟩ := hsb.top
            have := blurK_rigid hk2 (by rintro p rfl; cases hop)
            subst this
            cases k2 <;> first
              | (simp [Kind.isOpaque] at hop; done)
              | simp [isUnreachableLast, divergesLast, isUnreachableMacro_eq cx hr]
              | simp [isUnreachableLast, divergesLast]
          obtain ⟨k2, tks, rfl, hk2, hal⟩ := hsb.inv (fun l e => hbk ⟨l, e⟩) (by simpa using hop)
          by_cases hpp : ∃ p, ks' = .ePath false p
          · obtain ⟨p, rfl⟩ := hpp
            obtain ⟨p', rfl, _⟩ := blurK_path hk2
            simp [isUnreachableLast, divergesLast]
          have hkk := blurK_rigid hk2 (fun p e => hpp ⟨p, e⟩)
          subst hkk
          have hfk : hasAttrL NAME kk = false := by
            have := hfr.2
            simpa [hop] using this
          cases k2 with
          | sExpr b =>
            cases hal with
            | nil => simp [isUnreachableLast, divergesLast]
            | @cons e e' l l' he hl =>
              cases hl with
              | cons => simp [isUnreachableLast, divergesLast]
              | nil =>
                simp only [hasAttrL_cons, Bool.or_eq_false_iff] at hfk
                have := ih e (hkid e (by simp)) hfk.1 _ he
                simpa [isUnreachableLast, divergesLast] using this
          | sLocal p =>
            cases hal with
            | nil => simp [isUnreachableLast, divergesLast]
            | @cons e e' l l' he hl =>
              simp only [hasAttrL_cons, Bool.or_eq_false_iff] at hfk
              have := ih e (hkid e (by simp)) hfk.1 _ he
              simpa [isUnreachableLast, divergesLast] using this
          | _ => first
              | exact absurd rfl hop
              | simp [isUnreachableLast, divergesLast]
    have harms : ∀ l tl, (∀ c ∈ l, sizeOf c < sizeOf (Node.mk k as ks)) → hasAttrL NAME l = false →
        Aligned (Raw J) l tl → isUnreachableArms cx tl = divergesArms cx.marker l := by
      intro l
      induction l with
      | nil => intro tl _ _ ha; cases ha; simp [isUnreachableArms, divergesArms]
      | cons s l ihl =>
        intro tl hm hfl ha
        simp only [hasAttrL_cons, Bool.or_eq_false_iff] at hfl
        cases ha with
        | @cons _ b _ l' hsb hl =>
        have hrec := ihl l' (fun x hx => hm x (by simp [hx])) hfl.2 hl
        have hms := hm s (by simp)
        cases s with
        | mk ks' as' kk =>
        have hkid : ∀ e ∈ kk, sizeOf e < sizeOf (Node.mk k as ks) := by
          intro e he
          have := List.sizeOf_lt_of_mem he
          simp only [Node.mk.sizeOf_spec] at hms ⊢
          omega
        have hfr := hfl.1
        rw [hasAttr_mk, Bool.or_eq_false_iff] at hfr
        by_cases hA : ∃ p, ks' = .arm p
        · obtain ⟨p, rfl⟩ := hA
          obtain ⟨tks, rfl, hal⟩ := hsb.inv' (by simp) rfl (by simp)
          have hfk : hasAttrL NAME kk = false := by
            have := hfr.2
            simpa [Kind.isOpaque] using this
          cases hal with
          | nil => simp [isUnreachableArms, divergesArms]
          | @cons e e' l2 l2' he hl2 =>
            simp only [hasAttrL_cons, Bool.or_eq_false_iff] at hfk
            cases hl2 with
            | nil =>
              have := ih e (hkid e (by simp)) hfk.1 _ he
              simp [isUnreachableArms, divergesArms, this, hrec, marked_eq, NEVER]
            | @cons f f' l3 l3' hf' hl3 =>
              simp only [hasAttrL_cons, Bool.or_eq_false_iff] at hfk
              cases hl3 with
              | nil =>
                have := ih f (hkid f (by simp)) hfk.2.1 _ hf'
                simp [isUnreachableArms, divergesArms, this, hrec, marked_eq, NEVER]
              | cons => simp [isUnreachableArms, divergesArms]
        · obtain ⟨k2, tks, rfl, hk2⟩ := hsb.top
          have hA2 : ∀ p, k2 ≠ .arm p := by
            rintro p rfl
            have := blurK_rigid hk2.symm (by simp)
            exact hA ⟨p, this⟩
          have hA1 : ∀ p, ks' ≠ .arm p := fun p e => hA ⟨p, e⟩
          simp [isUnreachableArms, divergesArms, hA1, hA2]
    have hsz : ∀ c ∈ ks, sizeOf c < sizeOf (Node.mk k as ks) := by
      intro c hc
      have := List.sizeOf_lt_of_mem hc
      simp only [Node.mk.sizeOf_spec]
      omega
    have hfk : k.isOpaque = false → hasAttrL NAME ks = false := by
      intro ho
      simpa [ho] using hf
    by_cases hsp : special k = false
    · obtain ⟨k2, tks, rfl, hk2⟩ := ht.top
      rw [diverges_other hsp]
      by_cases hpp : ∃ p, k = .ePath false p
      · obtain ⟨p, rfl⟩ := hpp
        obtain ⟨p', rfl, _⟩ := blurK_path hk2
        rw [isUnreachable_other rfl hn]
        rfl
      · have := blurK_rigid hk2 (fun p e => hpp ⟨p, e⟩)
        subst this
        rw [isUnreachable_other hsp hn]
    · have hnv : marked "never" as = anyEmptyAttr as NEVER := marked_eq _ _
      by_cases hbk : ∃ l, k = .eBreak l
      · obtain ⟨l, rfl⟩ := hbk
        obtain ⟨k2, tks, rfl, hk2⟩ := ht.top
        have := blurK_rigid hk2 (by simp)
        subst this
        simp [isUnreachable, diverges]
      by_cases hop : k.isOpaque = true
      · obtain ⟨k2, tks, rfl, hk2⟩ := ht.top
        have := blurK_rigid hk2 (by rintro p rfl; cases hop)
        subst this
        cases k2 <;> first
          | (simp [Kind.isOpaque] at hop; done)
          | (simp [special] at hsp; done)
          | simp [isUnreachable, diverges, isUnreachableMacro_eq cx hr, hn, hnv]
      have hop : k.isOpaque = false := by simpa using hop
      replace hfk := hfk hop
      obtain ⟨tks, rfl, hal⟩ := ht.inv' (fun l e => hbk ⟨l, e⟩) hop (by rintro p rfl; simp [special] at hsp)
      unfold isUnreachable diverges
      rw [hn, hnv, Bool.or_false]
      congr 1
      cases k <;> first
        | (simp [special] at hsp; done)
        | exact absurd ⟨_, rfl⟩ hbk
        | exact hlast ks tks hsz hfk hal
        | rfl
        | skip
      case eMatch =>
        cases hal with
        | nil => rfl
        | cons _ hl =>
          simp only [hasAttrL_cons, Bool.or_eq_false_iff] at hfk
          exact harms _ _ (fun c hc => hsz c (by simp [hc])) hfk.2 hl
      case eMacro => cases hop
      case eMethodCall =>
        cases hal with
        | nil => rfl
        | @cons e _ _ _ he hl =>
          simp only [hasAttrL_cons, Bool.or_eq_false_iff] at hfk
          exact ih e (hsz e (by simp)) hfk.1 _ he
      case eParen =>
        cases hal with
        | nil => rfl
        | @cons e _ _ _ he hl =>
          simp only [hasAttrL_cons, Bool.or_eq_false_iff] at hfk
          cases hl with
          | nil => exact ih e (hsz e (by simp)) hfk.1 _ he
          | cons => rfl
      case eTry =>
        cases hal with
        | nil => rfl
        | @cons e _ _ _ he hl =>
          cases hl with
          | nil => exact isNoneOrErr_eq he
          | cons => rfl

/-! ## `#[nested]` -/

theorem hasNested_cons (n : Node) (ns : List Node) :
    hasNested (n :: ns) = (hasNested [n] || hasNested ns) := by
  simp [hasNested, visibleL]

theorem hasNested_mk (k : Kind) (as : List Attr) (ks : List Node) :
    hasNested [.mk k as ks] = (carries k && marked "nested" as || !k.isOpaque && hasNested ks) := by
  simp only [hasNested, visibleL, visible, List.append_nil, List.any_cons, hidesCode_eq]
  cases k.isOpaque <;> simp

theorem ctor_inv {J : Job} {as : List Attr} {x y : Node} (h : Alike J.en x (ctor J as y)) :
    ∃ v y', x = construct as J.en v y' ∧ Alike J.en y' y := by
  obtain ⟨ks, rfl, h1⟩ := Alike.rigid (k := .eCall) (as := as) h (by simp)
  obtain ⟨f, m, rfl, h2, h3⟩ := alikeL_inv h1
  obtain ⟨y', m', rfl, h4, h5⟩ := alikeL_inv h3
  cases alikeL_nil h5
  obtain ⟨kf, kk, rfl, h6, h7⟩ := h2.inv
  cases alikeL_nil h7
  have h8 : blurK J.en kf = .ePath false (variantPath J.en "") := by
    rw [h6]; simp [blurK, variantPath]
  have : ∃ v, kf = .ePath false (variantPath J.en v) := by
    unfold blurK at h8
    split at h8
    · split at h8
      · rename_i v hv; subst hv; exact ⟨v, rfl⟩
      · rename_i e v hv
        simp only [variantPath, Kind.ePath.injEq, Path.mk.injEq, List.cons.injEq, Seg.mk.injEq] at h8
        exact absurd h8.2.2.1.1 hv
    · exact ⟨"", h8⟩
  obtain ⟨v, rfl⟩ := this
  exact ⟨v, y', rfl, h4⟩

theorem raw_break {J : Job} {l : Option String} {as : List Attr} {ks : List Node} {t : Node}
    (h : Raw J (.mk (.eBreak l) as ks) t) : ∃ tks, t = .mk (.eBreak l) as tks ∧
      (Aligned (Raw J) ks tks ∨ (∃ v, ks = [] ∧ tks = [construct [] J.en v (.mk .eTuple [] [])]) ∨
        ∃ v e es x tl, ks = e :: es ∧ tks = construct [] J.en v x :: tl ∧ Raw J e x ∧
          Aligned (Raw J) es tl) := by
  obtain ⟨H, h⟩ := h
  rw [pend_plain] at h
  obtain ⟨tks, rfl, h1⟩ := h.rigid (by simp)
  refine ⟨tks, rfl, ?_⟩
  simp only [kidsP, hidesCode, Bool.false_eq_true, if_false] at h1
  split at h1
  · right
    cases ks with
    | nil =>
      obtain ⟨a, m, rfl, h2, h3⟩ := alikeL_inv h1
      cases alikeL_nil h3
      obtain ⟨v, y, rfl, h4⟩ := ctor_inv h2
      obtain ⟨z, rfl, h5⟩ := h4.rigid (by simp)
      cases alikeL_nil h5
      exact .inl ⟨v, rfl, rfl⟩
    | cons e es =>
      obtain ⟨a, m, rfl, h2, h3⟩ := alikeL_inv h1
      obtain ⟨v, y, rfl, h4⟩ := ctor_inv h2
      exact .inr ⟨v, e, es, y, m, rfl, rfl, ⟨_, h4⟩, raw_list h3⟩
  · exact .inl (raw_list h1)

theorem findNested_other {k : Kind} {as : List Attr} {ks : List Node} (ho : k.isOpaque = false)
    (hn : anyAttr as NAME = false) :
    findNested (.mk k as ks) = (carries k && anyEmptyAttr as NESTED || findNestedL ks) := by
  unfold findNested
  rw [ho, hn]
  cases k <;> first | (simp [Kind.isOpaque] at ho; done) | simp [carries, isExpression]

theorem findNested_construct (as : List Attr) (en vn : Ident) (e : Node) (h1 : anyAttr as NAME = false)
    (h2 : anyEmptyAttr as NESTED = false) : findNested (construct as en vn e) = findNested e := by
  unfold construct
  rw [findNested_other rfl h1, h2, findNestedL, findNestedL, findNestedL, findNested_other rfl rfl]
  simp [findNestedL, anyEmptyAttr]

theorem findNested_opaque {k : Kind} {as : List Attr} {ks : List Node} (ho : k.isOpaque = true)
    (hn : anyAttr as NAME = false) :
    findNested (.mk k as ks) = (carries k && anyEmptyAttr as NESTED) := by
  unfold findNested
  rw [ho, hn]
  cases k <;> first
    | (simp [Kind.isOpaque] at ho; done)
    | simp [carries, isExpression, Kind.isExpr, Kind.hasAttrs]

theorem carries_blur {en : Ident} {k k' : Kind} (h : blurK en k' = blurK en k) :
    carries k' = carries k ∧ k'.isOpaque = k.isOpaque := by
  by_cases hp : ∃ p, k = .ePath false p
  · obtain ⟨p, rfl⟩ := hp
    obtain ⟨p', rfl, _⟩ := blurK_path h
    exact ⟨rfl, rfl⟩
  · rw [blurK_rigid h fun p e => hp ⟨p, e⟩]; exact ⟨rfl, rfl⟩

theorem findNested_eq {J : Job} : ∀ o, hasAttr NAME o = false → ∀ t, Raw J o t →
    findNested t = hasNested [o] := by
  intro o
  induction o using Node.ind with
  | h k as ks ih =>
    intro hf t ht
    rw [hasAttr_mk, Bool.or_eq_false_iff] at hf
    obtain ⟨hn, hf⟩ := hf
    have hl : ∀ l tl, (∀ c ∈ l, c ∈ ks) → hasAttrL NAME l = false → Aligned (Raw J) l tl →
        findNestedL tl = hasNested l := by
      intro l
      induction l with
      | nil => intro tl _ _ ha; cases ha; simp [findNestedL, hasNested, visibleL]
      | cons s l ihl =>
        intro tl hm hfl ha
        simp only [hasAttrL_cons, Bool.or_eq_false_iff] at hfl
        cases ha with
        | @cons _ b _ l' hsb hl =>
        rw [findNestedL, hasNested_cons, ih s (hm s (by simp)) hfl.1 _ hsb,
          ihl _ (fun c hc => hm c (by simp [hc])) hfl.2 hl]
    rw [hasNested_mk, marked_eq]
    by_cases hop : k.isOpaque = true
    · obtain ⟨k2, tks, rfl, hk2⟩ := ht.top
      obtain ⟨e1, e2⟩ := carries_blur hk2
      rw [findNested_opaque (by rw [e2, hop]) hn, e1, hop]
      simp [NESTED]
    have hop : k.isOpaque = false := by simpa using hop
    have hfk : hasAttrL NAME ks = false := by simpa [hop] using hf
    by_cases hb : ∃ l, k = .eBreak l
    · obtain ⟨l, rfl⟩ := hb
      obtain ⟨tks, rfl, h1⟩ := raw_break ht
      rw [findNested_other rfl hn]
      have : findNestedL tks = hasNested ks := by
        rcases h1 with h1 | ⟨v, rfl, rfl⟩ | ⟨v, e, es, x, tl, rfl, rfl, h2, h3⟩
        · exact hl _ _ (fun _ h => h) hfk h1
        · rw [findNestedL, findNested_construct _ _ _ _ rfl rfl]
          simp [findNestedL, findNested, Kind.isOpaque, anyEmptyAttr, hasNested, visibleL]
        · simp only [hasAttrL_cons, Bool.or_eq_false_iff] at hfk
          rw [findNestedL, findNested_construct _ _ _ _ rfl rfl, ih e (by simp) hfk.1 _ h2,
            hl es tl (fun c hc => by simp [hc]) hfk.2 h3, ← hasNested_cons]
      rw [this]
      simp [Kind.isOpaque, NESTED]
    · obtain ⟨k2, tks, rfl, hk2, hal⟩ := ht.inv (fun l e => hb ⟨l, e⟩) hop
      obtain ⟨e1, e2⟩ := carries_blur hk2
      rw [findNested_other (by rw [e2, hop]) hn, e1, hop, hl ks tks (fun _ h => h) hfk hal]
      simp [NESTED]

theorem findNestedL_eq {J : Job} : ∀ l tl, hasAttrL NAME l = false → Aligned (Raw J) l tl →
    findNestedL tl = hasNested l := by
  intro l
  induction l with
  | nil => intro tl _ ha; cases ha; simp [findNestedL, hasNested, visibleL]
  | cons s l ihl =>
    intro tl hfl ha
    simp only [hasAttrL_cons, Bool.or_eq_false_iff] at hfl
    cases ha with
    | @cons _ b _ l' hsb hl =>
    rw [findNestedL, hasNested_cons, findNested_eq s hfl.1 _ hsb, ihl _ hfl.2 hl]

/-! ## Markers -/

theorem isMarkerExpr_eq {J : Job} {cx : Cx} (hr : cx.root = true) {o t : Node} (h : Raw J o t)
    (l : List Node) : cx.isMarkerExpr t = isCallOf cx.marker (o :: l) := by
  cases o with
  | mk k as ks =>
    obtain ⟨k2, tks, rfl, hk2⟩ := h.top
    by_cases hm : ∃ p x, k = .eMacro p x
    · obtain ⟨p, x, rfl⟩ := hm
      rw [blurK_rigid hk2 (by simp)]
      have := named_iff cx.marker ⟨p, .path⟩
      simp only [named, Attr.is] at this
      simp [Cx.isMarkerExpr, Cx.isMarker, hr, Cx.isMarkerExact, isCallOf, ← this]
    · have hm2 : ∀ p x, k2 ≠ .eMacro p x := by
        rintro p x rfl
        exact hm ⟨p, x, blurK_rigid hk2.symm (by simp)⟩
      have hm1 : ∀ p x, k ≠ .eMacro p x := fun p x e => hm ⟨p, x, e⟩
      unfold Cx.isMarkerExpr isCallOf
      split <;> split <;> simp_all

/-! ## Skipped branches -/

theorem isUnreachableLast_eq {J : Job} {cx : Cx} (hr : cx.root = true) {l tl : List Node}
    (hf : hasAttrL NAME l = false) (ha : Aligned (Raw J) l tl) :
    isUnreachableLast cx tl = divergesLast cx.marker l := by
  induction ha with
  | nil => simp [isUnreachableLast, divergesLast]
  | @cons s b l l' hsb hl ih =>
    simp only [hasAttrL_cons, Bool.or_eq_false_iff] at hf
    cases hl with
    | @cons c d l2 l2' hcd hl2 =>
      unfold isUnreachableLast divergesLast
      simpa using ih hf.2
    | nil =>
      cases s with
      | mk k as ks =>
      obtain ⟨k2, tks, rfl, hk2⟩ := hsb.top
      by_cases hs : k.isStmt = true
      · have hr2 : k2 = k := blurK_rigid hk2 (by rintro p rfl; cases hs)
        subst hr2
        have hfr := hf.1
        rw [hasAttr_mk, Bool.or_eq_false_iff] at hfr
        cases k2 <;> first | (simp [Kind.isStmt] at hs; done) | skip
        case sExpr b =>
          obtain ⟨tks', h1, hal⟩ := hsb.inv' (by simp) rfl (by simp)
          cases h1
          have hfk : hasAttrL NAME ks = false := by simpa [Kind.isOpaque] using hfr.2
          cases hal with
          | nil => simp [isUnreachableLast, divergesLast]
          | @cons e e' l l' he hl =>
            cases hl with
            | cons => simp [isUnreachableLast, divergesLast]
            | nil =>
              simp only [hasAttrL_cons, Bool.or_eq_false_iff] at hfk
              simpa [isUnreachableLast, divergesLast] using unreachable_eq hr e hfk.1 _ he
        case sLocal p =>
          obtain ⟨tks', h1, hal⟩ := hsb.inv' (by simp) rfl (by simp)
          cases h1
          have hfk : hasAttrL NAME ks = false := by simpa [Kind.isOpaque] using hfr.2
          cases hal with
          | nil => simp [isUnreachableLast, divergesLast]
          | @cons e e' l l' he hl =>
            simp only [hasAttrL_cons, Bool.or_eq_false_iff] at hfk
            simpa [isUnreachableLast, divergesLast] using unreachable_eq hr e hfk.1 _ he
        case sItem i => simp [isUnreachableLast, divergesLast]
        case sMacro p x => simp [isUnreachableLast, divergesLast, isUnreachableMacro_eq cx hr]
      · have h2 : k2.isStmt = false := by
          by_cases hp : ∃ p, k = .ePath false p
          · obtain ⟨p, rfl⟩ := hp
            obtain ⟨p', rfl, _⟩ := blurK_path hk2
            rfl
          · rw [blurK_rigid hk2 fun p e => hp ⟨p, e⟩]; simpa using hs
        have h1 : k.isStmt = false := by simpa using hs
        have e1 : ∀ {k as ks}, k.isStmt = false → isUnreachableLast cx [.mk k as ks] = false := by
          intro k as ks h
          cases k <;> first | (simp [Kind.isStmt] at h; done) | simp [isUnreachableLast]
        have e2 : ∀ {k as ks m}, k.isStmt = false → divergesLast m [.mk k as ks] = false := by
          intro k as ks m h
          cases k <;> first | (simp [Kind.isStmt] at h; done) | simp [divergesLast]
        rw [e1 h2, e2 h1]

theorem grammaticalL_mem {l : List Node} (h : grammaticalL l = true) {n : Node} (hn : n ∈ l) :
    grammatical n = true := by
  induction l with
  | nil => simp at hn
  | cons a l ih =>
    simp only [grammaticalL, Bool.and_eq_true] at h
    rcases List.mem_cons.mp hn with rfl | hn
    · exact h.1
    · exact ih h.2 hn

theorem skipBlock_eq {J : Job} {cx : Cx} (hr : cx.root = true) {l tl : List Node}
    (hf : hasAttrL NAME l = false) (hg : grammaticalL l = true) (ha : Aligned (Raw J) l tl) :
    skipBlock cx tl = skipsBlock cx.marker l := by
  have hlast : ∀ {l tl : List Node}, Aligned (Raw J) l tl → hasAttrL NAME l = false →
      (l = [] ∧ tl = []) ∨ ∃ o t, l.getLast? = some o ∧ tl.getLast? = some t ∧ Raw J o t ∧
        hasAttr NAME o = false := by
    intro l tl ha
    induction ha with
    | nil => intro; exact .inl ⟨rfl, rfl⟩
    | @cons a b l l' hab hl ih =>
      intro hf
      simp only [hasAttrL_cons, Bool.or_eq_false_iff] at hf
      rcases ih hf.2 with ⟨rfl, rfl⟩ | ⟨o, t, h1, h2, h3⟩
      · exact .inr ⟨a, b, rfl, rfl, hab, hf.1⟩
      · refine .inr ⟨o, t, ?_, ?_, h3⟩ <;> simp [List.getLast?_cons, h1, h2]
  have hN := findNestedL_eq l tl hf ha
  have hU := isUnreachableLast_eq hr hf ha
  unfold skipBlock skipsBlock
  rcases hlast ha hf with ⟨rfl, rfl⟩ | ⟨o, t, h1, h2, h3, h4⟩
  · exact hU
  · rw [h1, h2]
    cases o with
    | mk k as ks =>
    by_cases hk : ∃ e, k = .sExpr false ∧ ks = [e]
    · obtain ⟨e, rfl, rfl⟩ := hk
      obtain ⟨tks, rfl, hal⟩ := h3.inv' (by simp) rfl (by simp)
      cases hal with
      | @cons _ e' _ _ he hl =>
      cases hl
      have hfe : hasAttr NAME e = false := by
        rw [hasAttr_mk, Bool.or_eq_false_iff] at h4
        simpa [Kind.isOpaque] using h4.2
      dsimp only
      rw [hN, unreachable_eq hr e hfe _ he]
      have : e'.anyEmptyAttr NESTED = true → hasNested l = true := by
        intro hne
        rw [← hN]
        have hmem : .mk (.sExpr false) as [e'] ∈ tl := List.mem_of_getLast? h2
        have hfl : ∀ {l : List Node} {x}, x ∈ l → findNested x = true → findNestedL l = true := by
          intro l x hx hf
          induction l with
          | nil => simp at hx
          | cons a l ih =>
            rw [findNestedL, Bool.or_eq_true]
            rcases List.mem_cons.mp hx with rfl | hx
            · exact .inl hf
            · exact .inr (ih hx)
        refine hfl hmem ?_
        have hfn : findNested (.mk (.sExpr false) as [e']) = findNested e' := by
          simp [findNested, findNestedL, Kind.isOpaque]
        rw [hfn]
        have hge : isExprNode e = true := by
          have := grammaticalL_mem hg (List.mem_of_getLast? h1)
          simp only [grammatical, hidesCode, kidsOk, Bool.false_or, Bool.and_eq_true] at this
          exact this.1
        cases e with
        | mk k2 as2 ks2 =>
          obtain ⟨k3, tks, rfl, hk3⟩ := he.top
          obtain ⟨c1, c2⟩ := carries_blur hk3
          rw [hasAttr_mk, Bool.or_eq_false_iff] at hfe
          have hkk : k3.isExpr = k2.isExpr := by
            by_cases hp : ∃ p, k2 = .ePath false p
            · obtain ⟨p, rfl⟩ := hp
              obtain ⟨p', rfl, _⟩ := blurK_path hk3
              rfl
            · rw [blurK_rigid hk3 fun p e => hp ⟨p, e⟩]
          have hke : k2.isExpr = true := by
            cases k2 <;> first | rfl | simp [isExprNode, Node.kind] at hge
          rw [hke] at hkk
          have hne' : k3.hasAttrs = true ∧ anyEmptyAttr as2 NESTED = true := by
            cases k3 <;> first
              | (simp [Kind.isExpr] at hkk; done)
              | (simp [Node.anyEmptyAttr, Node.attrs, Kind.hasAttrs, anyEmptyAttr] at hne; done)
              | simpa [Node.anyEmptyAttr, Node.attrs, Kind.hasAttrs, anyEmptyAttr] using hne
          have hca : carries k3 = true := by
            have := hne'.1
            cases k3 <;> first
              | rfl
              | (simp [Kind.isExpr] at hkk; done)
              | (simp [Kind.hasAttrs] at this; done)
          by_cases ho : k3.isOpaque = true
          · rw [findNested_opaque ho hfe.1, hca, hne'.2]; rfl
          · rw [findNested_other (by simpa using ho) hfe.1, hca, hne'.2]; rfl
      cases hx : e'.anyEmptyAttr NESTED
      · simp
      · rw [this hx]; simp
    · cases t with
      | mk k2 as2 tks =>
      have hk2 : ¬∃ e, k2 = .sExpr false ∧ tks = [e] := by
        rintro ⟨e, rfl, rfl⟩
        obtain ⟨k3, tks, h5, hk3⟩ := h3.top
        cases h5
        have := blurK_rigid hk3.symm (by simp)
        subst this
        obtain ⟨tks, h6, hal⟩ := h3.inv' (by simp) rfl (by simp)
        cases h6
        cases hal with
        | cons _ hl => cases hl; exact hk ⟨_, rfl, rfl⟩
      split
      · rename_i heq; cases heq; exact absurd ⟨_, rfl, rfl⟩ hk2
      · split
        · rename_i heq; cases heq; exact absurd ⟨_, rfl, rfl⟩ hk
        · exact hU

theorem skipArm_eq {J : Job} {cx : Cx} (hr : cx.root = true) {p : String} {as : List Attr}
    {l tl : List Node} (hf : hasAttr NAME (.mk (.arm p) as l) = false) (ha : Aligned (Raw J) l tl)
    (hlen : l.length = 1 ∨ l.length = 2) :
    skipArm cx (.mk (.arm p) as tl) = skipsArm cx.marker (.mk (.arm p) as l) := by
  rw [hasAttr_mk, Bool.or_eq_false_iff] at hf
  obtain ⟨hn, hf⟩ := hf
  have hfk : hasAttrL NAME l = false := by simpa [Kind.isOpaque] using hf
  have hN : findNested (.mk (.arm p) as tl) = hasNested [.mk (.arm p) as l] := by
    rw [findNested_other rfl hn, hasNested_mk, findNestedL_eq l tl hfk ha, marked_eq]
    simp [Kind.isOpaque, NESTED]
  have hne : anyEmptyAttr as NESTED = true → hasNested [.mk (.arm p) as l] = true := by
    intro h
    rw [hasNested_mk, marked_eq]
    simp only [NESTED] at h
    simp [carries, h]
  unfold skipArm skipsArm
  dsimp only
  rw [hN, marked_eq]
  have key : ∀ b b', Raw J b b' → hasAttr NAME b = false →
      (anyEmptyAttr as NEVER || anyEmptyAttr as NESTED || isUnreachable cx b' ||
        hasNested [.mk (.arm p) as l]) =
      (anyEmptyAttr as "never" || hasNested [.mk (.arm p) as l] || diverges cx.marker b) := by
    intro b b' hb hfb
    rw [unreachable_eq hr b hfb _ hb]
    cases h1 : anyEmptyAttr as NESTED <;> simp only [NEVER]
    · cases anyEmptyAttr as "never" <;> cases diverges cx.marker b <;>
        cases hasNested [.mk (.arm p) as l] <;> rfl
    · rw [hne h1]; simp
  cases ha with
  | nil => simp at hlen
  | @cons a b l1 l1' hab hl =>
    simp only [hasAttrL_cons, Bool.or_eq_false_iff] at hfk
    cases hl with
    | nil => exact key a b hab hfk.1
    | @cons c d l2 l2' hcd hl2 =>
      simp only [hasAttrL_cons, Bool.or_eq_false_iff] at hfk
      cases hl2 with
      | nil => exact key c d hcd hfk.2.1
      | cons => simp at hlen

end AutoEnums
