import Verif.Lemmas.PendPred
import Verif.RunCore

/-! # The pass over a loop -/

namespace AutoEnums

open Spec

/-- The context does the job. -/
structure Does (J : Job) (cx : Cx) : Prop where
  ident : cx.ident = J.en
  marker : cx.marker = J.marker
  root : cx.root = true
  branches : cx.visitLast = J.branches
  returns : (∃ n, cx.mode = .ret n) ↔ J.returns = true
  tries : cx.mode = .try_ ↔ J.tries = true

theorem Does.same {J : Job} {a b : Cx} (h : Does J a) (hs : Same a b) : Does J b :=
  ⟨hs.ident.trans h.ident, hs.marker.trans h.marker, hs.root.trans h.root,
    hs.visitLast.trans h.branches, by rw [hs.mode]; exact h.returns, by rw [hs.mode]; exact h.tries⟩

/-- One of the two. -/
def orH (H D : Hit) : Hit := fun b => H b || D b

theorem construct_alike {J : Job} {as : List Attr} {en vn : Ident} {x y : Node} (he : en = J.en)
    (h : Alike J.en x y) : Alike J.en (construct as en vn x) (ctor J as y) := by
  subst he; exact ctor_alike rfl h

theorem next_alike {J : Job} {cx : Cx} (hF : Does J cx) (as : List Attr) {x y : Node}
    (h : Alike J.en x y) : Alike J.en (cx.nextExprAttrs as x).2 (ctor J as y) := by
  have : (cx.nextExprAttrs as x).2 = construct as cx.ident (variantIdent cx.variants.length) x := rfl
  rw [this, hF.ident]
  exact ctor_alike rfl h

theorem labelsOkL_mem {s : List String} {l : List Node} (h : labelsOkL s l = true) {n : Node}
    (hn : n ∈ l) : labelsOk s n = true := by
  induction l with
  | nil => simp at hn
  | cons a l ih =>
    simp only [labelsOkL, Bool.and_eq_true] at h
    rcases List.mem_cons.mp hn with rfl | hn
    · exact h.1
    · exact ih h.2 hn

/-! ## Trees without `break` -/

theorem visibleL_mem {l : List Node} {n : Node} (hn : n ∈ l) {x : Label} (h : x ∈ visible n) :
    x ∈ visibleL l := by
  induction l with
  | nil => simp at hn
  | cons a l ih =>
    simp only [visibleL, List.mem_append]
    rcases List.mem_cons.mp hn with rfl | hn
    · exact .inl h
    · exact .inr (ih hn)

theorem pendL_congr {J : Job} {Hs Hs' : Nat → Hit} {rs : Nat → Role} : ∀ {l : List Node},
    (∀ i n, l[i]? = some n → pend J (Hs i) (rs i) n = pend J (Hs' i) (rs i) n) →
    pendL J Hs rs l = pendL J Hs' rs l := by
  intro l
  induction l generalizing Hs Hs' rs with
  | nil => intro; rfl
  | cons a l ih =>
    intro h
    rw [pendL, pendL, h 0 a rfl, ih fun i n hi => h (i + 1) n (by simpa using hi)]

theorem pend_nobreak {J : Job} : ∀ (o : Node) (H H' : Hit) (r : Role),
    (∀ x ∈ visible o, isBreak x.1 = false) → pend J H r o = pend J H' r o := by
  intro o
  induction o using Node.ind with
  | h k as ks ih =>
    intro H H' r h
    have hk : ∀ l, k ≠ .eBreak l := by
      rintro l rfl
      have := h (.eBreak l, as) (by simp [visible])
      simp [isBreak] at this
    have hkp : ∀ r ks', kidsP J H r k as ks ks' = kidsP J H' r k as ks ks' := by
      intro r ks'
      unfold kidsP
      split <;> first | rfl | exact absurd rfl (hk _)
    rw [pend, pend, hkp]
    have : (if hidesCode k = true then ks else pendL J (fun i => kidH H (roleP J r k as ks) k as i)
        (fun i => kidRoleP (roleP J r k as ks) k ks.length i) ks) =
      (if hidesCode k = true then ks else pendL J (fun i => kidH H' (roleP J r k as ks) k as i)
        (fun i => kidRoleP (roleP J r k as ks) k ks.length i) ks) := by
      split
      · rfl
      · rename_i ho
        refine pendL_congr fun i n hi => ih n (List.mem_of_getElem? hi) _ _ _ fun x hx => ?_
        refine h x ?_
        rw [visible, if_neg ho]
        exact List.mem_cons_of_mem _ (visibleL_mem (List.mem_of_getElem? hi) hx)
    rw [this]

/-! ## `LoopVisitor` -/

theorem pend_opaque {J : Job} {H : Hit} {k : Kind} (as : List Attr) (ks : List Node)
    (h : k.isOpaque = true) : pend J H .plain (.mk k as ks) = .mk k as ks := by
  rw [pend_plain, hidesCode_eq, h]
  rw [kidsP_plain]
  · rfl
  · rintro l rfl; simp [Kind.isOpaque] at h

/-- Kinds at which the pass over a loop does nothing itself. -/
def passes : Kind → Bool
  | .eClosure _ | .eAsync | .eLoop _ | .eForLoop _ _ | .eWhile _ | .eBreak _ => false
  | _ => true

theorem loopVisit_passes {label : Option String} {nested : Bool} {cx : Cx} {k : Kind}
    {as : List Attr} {ks : List Node} (hp : passes k = true)
    (hn : (k.isOpaque || (k.isExpr && anyEmptyAttr as NEVER)) = false) :
    loopVisit label nested cx (.mk k as ks) =
      ((loopVisitL label nested cx ks).1, .mk k as (loopVisitL label nested cx ks).2) := by
  rw [loopVisit.eq_def]
  dsimp only
  rw [hn]
  cases k <;> first | (simp [passes] at hp; done) | rfl

theorem loopVisit_construct (label : Option String) (nested : Bool) (cx : Cx) (en vn : Ident)
    (e : Node) : (loopVisit label nested cx (construct [] en vn e)).2 =
      construct [] en vn (loopVisit label nested cx e).2 := by
  unfold construct
  rw [loopVisit_passes rfl rfl]
  have : ∀ p, loopVisit label nested cx (.mk (.ePath false p) [] []) = (cx, .mk (.ePath false p) [] []) :=
    fun p => loopVisit_passes rfl rfl
  simp only [loopVisitL, this]

theorem loopVisitL_pend {J : Job} {label : Option String} {nested : Bool} {Hs Hs' : Nat → Hit} :
    ∀ {l tl : List Node} {cx : Cx}, Does J cx → AlikeL J.en tl (pendL J Hs (fun _ => .plain) l) →
      (∀ i n, l[i]? = some n → ∀ cx t, Does J cx → Alike J.en t (pend J (Hs i) .plain n) →
        Alike J.en (loopVisit label nested cx t).2 (pend J (Hs' i) .plain n)) →
      AlikeL J.en (loopVisitL label nested cx tl).2 (pendL J Hs' (fun _ => .plain) l) := by
  intro l
  induction l generalizing Hs Hs' with
  | nil => intro tl cx _ h _; rw [alikeL_nil h]; rfl
  | cons a l ih =>
    intro tl cx hF h hn
    obtain ⟨b, m, rfl, h1, h2⟩ := alikeL_inv h
    rw [loopVisitL]
    exact .cons (hn 0 a rfl cx b hF h1) (ih (Hs := fun i => Hs (i + 1)) (Hs' := fun i => Hs' (i + 1))
      (hF.same (loopVisit_kept _ _ _ _)) h2 fun i n hi => hn (i + 1) n (by simpa using hi))

theorem loopVisit_pend {J : Job} (label : Option String) : ∀ (o : Node) (nested : Bool)
    (seen : List String) (H : Hit) (t : Node) (cx : Cx), Does J cx → hasAttr NAME o = false →
    grammatical o = true → labelsOk seen o = true → (∀ x, label = some x → x ∈ seen) →
    (label = none → nested = false) → (∀ b, breakMatches label nested b = true → H b = false) →
    Alike J.en t (pend J H .plain o) →
    Alike J.en (loopVisit label nested cx t).2 (pend J (orH H (breakMatches label nested)) .plain o) := by
  intro o
  induction o using Node.ind with
  | h k as ks ih =>
    intro nested seen H t cx hF hf hg hlab hsn hnest hD h
    rw [hasAttr_mk, Bool.or_eq_false_iff] at hf
    by_cases hop : k.isOpaque = true
    · rw [pend_opaque as ks hop] at h ⊢
      obtain ⟨k', tks, rfl, h1, h2⟩ := h.inv
      have : k' = k := blurK_rigid h1 (by rintro p rfl; simp [Kind.isOpaque] at hop)
      subst this
      unfold loopVisit
      rw [hop]
      exact h
    replace hop : k.isOpaque = false := by simpa using hop
    have hfk : hasAttrL NAME ks = false := by simpa [hop] using hf.2
    rw [grammatical, hidesCode_eq, hop, Bool.false_or, Bool.and_eq_true] at hg
    rw [labelsOk.eq_def] at hlab
    dsimp only at hlab
    rw [hidesCode_eq, hop, Bool.false_or, Bool.and_eq_true, Bool.and_eq_true] at hlab
    obtain ⟨⟨hl1, hl2⟩, hl3⟩ := hlab
    by_cases hnv : isExpression k = true ∧ marked "never" as = true
    · have hthr : ∀ H, thr H k as = noHit := by intro H; simp [thr, hnv]
      have hE : pend J H .plain (.mk k as ks) =
          pend J (orH H (breakMatches label nested)) .plain (.mk k as ks) := by
        rw [pend_plain, pend_plain]
        have : ∀ i, kidH H .plain k as i =
            kidH (orH H (breakMatches label nested)) .plain k as i := by
          intro i; unfold kidH; split <;> simp [hthr]
        simp only [this]
        congr 1
        unfold kidsP
        split <;> simp only [hthr]
      rw [← hE]
      obtain ⟨k', tks, rfl, h1, h2⟩ := (show Alike J.en t (.mk k as _) from pend_plain J H k as ks ▸ h).inv
      have : (k'.isOpaque || (k'.isExpr && anyEmptyAttr as NEVER)) = true := by
        have hke : k'.isExpr = true := by
          by_cases hp : ∃ p, k = .ePath false p
          · obtain ⟨p, rfl⟩ := hp
            obtain ⟨p', rfl, _⟩ := blurK_path h1
            rfl
          · rw [blurK_rigid h1 fun p e => hp ⟨p, e⟩]
            have := hnv.1
            rw [isExpression_eq] at this
            exact (Bool.and_eq_true _ _ ▸ this).1
        have := hnv.2
        rw [marked_eq] at this
        simp [hke, this, NEVER]
      unfold loopVisit
      rw [if_pos this]
      exact h
    have hthr : ∀ H, thr H k as = H := by
      intro H
      unfold thr
      rw [if_neg]
      simpa using hnv
    have hnv' : ∀ k', blurK J.en k' = blurK J.en k →
        (k'.isOpaque || (k'.isExpr && anyEmptyAttr as NEVER)) = false := by
      intro k' h1
      have hke : k'.isExpr = k.isExpr ∧ k'.isOpaque = k.isOpaque := by
        by_cases hp : ∃ p, k = .ePath false p
        · obtain ⟨p, rfl⟩ := hp
          obtain ⟨p', rfl, _⟩ := blurK_path h1
          exact ⟨rfl, rfl⟩
        · rw [blurK_rigid h1 fun p e => hp ⟨p, e⟩]; exact ⟨rfl, rfl⟩
      rw [hke.1, hke.2, hop, Bool.false_or]
      rw [marked_eq, isExpression_eq] at hnv
      cases hv : anyEmptyAttr as NEVER
      · simp
      · simp only [NEVER] at hv
        rw [hv] at hnv
        cases k <;> first | (simp [Kind.isOpaque] at hop; done) | (simp [Kind.isExpr, Kind.hasAttrs] at hnv; done) | rfl
    -- kids with one `Hit`
    have hkids : ∀ (nested' : Bool) (seen' : List String) (H1 : Hit) (tks : List Node) (cx : Cx),
        Does J cx → labelsOkL seen' ks = true → (∀ x, label = some x → x ∈ seen') →
        (label = none → nested' = false) → (∀ b, breakMatches label nested' b = true → H1 b = false) →
        AlikeL J.en tks (pendL J (fun _ => H1) (fun _ => .plain) ks) →
        AlikeL J.en (loopVisitL label nested' cx tks).2
          (pendL J (fun _ => orH H1 (breakMatches label nested')) (fun _ => .plain) ks) := by
      intro nested' seen' H1 tks cx hF hl hs hn hD1 h
      refine loopVisitL_pend hF h fun i n hi cx t hF ht => ?_
      have hm := List.mem_of_getElem? hi
      exact ih n hm nested' seen' H1 t cx hF (hasAttrL_mem hfk n hm) (grammaticalL_mem hg.2 hm)
        (labelsOkL_mem hl hm) hs hn hD1 ht
    rw [pend_plain, hidesCode_eq, hop] at h ⊢
    simp only [Bool.false_eq_true, if_false] at h ⊢
    by_cases hps : passes k = true
    · -- the kids are visited
      rw [kidsP_plain _ _ _ _ _ _ (by rintro l rfl; simp [passes] at hps)] at h ⊢
      obtain ⟨k', tks, rfl, h1, h2⟩ := h.inv
      have hps' : passes k' = true := by
        by_cases hp : ∃ p, k = .ePath false p
        · obtain ⟨p, rfl⟩ := hp
          obtain ⟨p', rfl, _⟩ := blurK_path h1
          rfl
        · rw [blurK_rigid h1 fun p e => hp ⟨p, e⟩]; exact hps
      rw [loopVisit_passes hps' (hnv' k' h1)]
      refine .mk h1 ?_
      have hl3' : labelsOkL ((labelOf k).toList ++ seen) ks = true := by
        cases k <;> first | (simp [passes] at hps; done) | exact hl3
      have hsn' : ∀ x, label = some x → x ∈ (labelOf k).toList ++ seen := fun x hx => by
        simp [hsn x hx]
      by_cases hb : ∃ l, k = .eBlock (some l)
      · obtain ⟨l, rfl⟩ := hb
        simp only [kidH, hthr] at h2 ⊢
        have hne : label ≠ some l := by
          rintro rfl
          simp [labelOf, hsn l rfl] at hl1
        have : push (some l) false false (orH H (breakMatches label nested)) =
            orH (push (some l) false false H) (breakMatches label nested) := by
          funext b
          cases b with
          | none => simp [push, orH]
          | some x =>
            by_cases hx : l = x
            · subst hx
              cases label with
              | none => simp [push, orH, breakMatches]
              | some y => 
                have : y ≠ l := fun e => hne (by rw [e])
                simp [push, orH, breakMatches, this]
            · simp [push, orH, hx]
        rw [this]
        refine hkids nested _ _ tks cx hF hl3' hsn' hnest ?_ h2
        intro b hb
        cases b with
        | none => simpa [push] using hD none hb
        | some x => 
          have := hD (some x) hb
          simp [push, this]
      · have hkh : ∀ H i, kidH H .plain k as i = H := by
          intro H i
          cases k <;> first
            | (simp [passes] at hps; done)
            | exact hthr H
            | skip
          case eBlock l =>
            cases l with
            | none => exact hthr H
            | some l => exact absurd ⟨l, rfl⟩ hb
        simp only [hkh] at h2 ⊢
        exact hkids nested _ _ tks cx hF hl3' hsn' hnest hD h2
    · have hpush0 : label = none → ∀ l, push l true false (orH H (breakMatches label nested)) =
          push l true false H := by
        rintro hn l
        have := hnest hn
        subst hn this
        funext b
        cases b <;> simp [push, orH, breakMatches]
      have hpush1 : ∀ y, label = some y → ∀ l, l ≠ some y →
          push l true false (orH H (breakMatches label nested)) =
            orH (push l true false H) (breakMatches label true) := by
        rintro y rfl l hl
        funext b
        cases b with
        | none => simp [push, orH, breakMatches]
        | some x =>
          by_cases hx : l = some x
          · subst hx
            have : y ≠ x := fun e => hl (by rw [e])
            simp [push, orH, breakMatches, this]
          · simp [push, orH, breakMatches, hx]
      have hpushD : ∀ y, label = some y → ∀ l b, breakMatches label true b = true →
          push l true false H b = false := by
        rintro y rfl l b hb
        cases b with
        | none => simp [breakMatches] at hb
        | some x =>
          have := hD (some x) (by simpa [breakMatches] using hb)
          simp [push, this]
      have hlne : ∀ y, label = some y → labelOf k ≠ some y := by
        rintro y rfl e
        rw [e] at hl1
        simp [hsn y rfl] at hl1
      have hsn' : ∀ x, label = some x → x ∈ (labelOf k).toList ++ seen := fun x hx => by
        simp [hsn x hx]
      by_cases hb : ∃ l, k = .eBreak l
      · obtain ⟨l, rfl⟩ := hb
        have hnv2 := hnv' _ rfl
        have hl3 : labelsOkL seen ks = true := hl3
        simp only [kidsP, hthr, kidH] at h ⊢
        obtain ⟨tks, rfl, h2⟩ := h.rigid (by simp)
        rw [loopVisit.eq_def]
        dsimp only
        rw [hnv2]
        simp only [Bool.false_eq_true, if_false]
        by_cases hbm : breakMatches label nested l = true
        · rw [if_pos hbm]
          have hHl := hD l hbm
          have ho : orH H (breakMatches label nested) l = true := by simp [orH, hbm]
          simp only [hHl, Bool.false_and, Bool.false_eq_true, if_false] at h2
          simp only [ho, Bool.true_and]
          cases ks with
          | nil =>
            rw [alikeL_nil h2]
            simp only [isCallOf, Bool.not_false, if_true, pendL, wrapHead]
            exact .node _ _ (.cons (next_alike hF [] (.refl _)) rfl)
          | cons e rest =>
            have hrest : rest = [] := by
              have := hg.1
              cases rest with
              | nil => rfl
              | cons => simp [kidsOk] at this
            subst hrest
            obtain ⟨e', m, rfl, h3, h4⟩ := alikeL_inv h2
            cases alikeL_nil h4
            dsimp only
            have hmk := isMarkerExpr_eq hF.root ⟨_, h3⟩ []
            rw [hF.marker] at hmk
            rw [hmk]
            cases hc : isCallOf J.marker [e]
            · simp only [Bool.false_eq_true, if_false, Bool.not_false, if_true, pendL, wrapHead]
              refine .node _ _ (.cons ?_ rfl)
              have hs : Does J { cx with variants := cx.variants ++ [variantIdent cx.variants.length] } :=
                hF.same (Same.next cx [] e)
              have := ih e (by simp) nested seen H e' _ hs (hasAttrL_mem hfk e (by simp))
                (grammaticalL_mem hg.2 (by simp)) (labelsOkL_mem hl3 (by simp)) hsn hnest hD h3
              exact construct_alike hF.ident this
            · simp only [if_true, Bool.not_true, Bool.false_eq_true, if_false, pendL]
              refine .node _ _ (.cons (h3.trans ?_) rfl)
              have : ∃ p x as ks, e = .mk (.eMacro p x) as ks := by
                unfold isCallOf at hc
                split at hc
                · rename_i heq; cases heq; exact ⟨_, _, _, _, rfl⟩
                · simp at hc
              obtain ⟨p, x, as2, ks2, rfl⟩ := this
              rw [pend_opaque _ _ rfl, pend_opaque _ _ rfl]
              exact .refl _
        · rw [if_neg hbm]
          replace hbm : breakMatches label nested l = false := by simpa using hbm
          have ho : orH H (breakMatches label nested) l = H l := by simp [orH, hbm]
          simp only [ho]
          split at h2
          · rename_i hw
            rw [if_pos hw]
            refine .node _ _ ?_
            cases ks with
            | nil =>
              obtain ⟨a, m, rfl, h3, h4⟩ := alikeL_inv h2
              cases alikeL_nil h4
              obtain ⟨v, y, rfl, h5⟩ := ctor_inv h3
              obtain ⟨z, rfl, h6⟩ := h5.rigid (by simp)
              cases alikeL_nil h6
              simp only [loopVisitL, loopVisit_construct]
              have : loopVisit label nested cx (.mk .eTuple [] []) = (cx, .mk .eTuple [] []) :=
                loopVisit_passes rfl rfl
              rw [this]
              exact .cons (ctor_alike rfl (.refl _)) rfl
            | cons e rest =>
              have hrest : rest = [] := by
                have := hg.1
                cases rest with
                | nil => rfl
                | cons => simp [kidsOk] at this
              subst hrest
              obtain ⟨a, m, rfl, h3, h4⟩ := alikeL_inv h2
              cases alikeL_nil h4
              obtain ⟨v, y, rfl, h5⟩ := ctor_inv h3
              simp only [loopVisitL, loopVisit_construct]
              exact .cons (ctor_alike rfl (ih e (by simp) nested seen H y _ hF
                (hasAttrL_mem hfk e (by simp)) (grammaticalL_mem hg.2 (by simp))
                (labelsOkL_mem hl3 (by simp)) hsn hnest hD h5)) rfl
          · rename_i hw
            rw [if_neg hw]
            exact .node _ _ (hkids nested seen H tks cx hF hl3 hsn hnest hD h2)
      · rw [kidsP_plain _ _ _ _ _ _ (fun l e => hb ⟨l, e⟩)] at h ⊢
        obtain ⟨k', tks, rfl, h1, h2⟩ := h.inv
        have : k' = k := blurK_rigid h1 (by rintro p rfl; exact hps rfl)
        subst this
        have hn' := hnv' _ rfl
        rw [loopVisit.eq_def]
        dsimp only
        rw [hn']
        simp only [Bool.false_eq_true, if_false]
        cases k' <;> first | (exact absurd rfl hps) | skip
        case eLoop l =>
          simp only [kidH, hthr, show (Role.plain = Role.result) = False by simp, decide_false] at h2 ⊢
          split
          · rename_i hn
            rw [hpush0 (by simpa using hn)]
            exact .node _ _ h2
          · rename_i hn
            obtain ⟨y, hy⟩ := Option.isSome_iff_exists.mp (by simpa [Option.isNone_iff_eq_none, Option.isSome_iff_ne_none] using hn)
            rw [hpush1 y hy l (hlne y hy)]
            exact .node _ _ (hkids true _ _ tks cx hF hl3 hsn' (by simp [hy]) (hpushD y hy l) h2)
        case eWhile l =>
          simp only [kidH, hthr] at h2 ⊢
          split
          · rename_i hn
            rw [hpush0 (by simpa using hn)]
            exact .node _ _ h2
          · rename_i hn
            obtain ⟨y, hy⟩ := Option.isSome_iff_exists.mp (by simpa [Option.isNone_iff_eq_none, Option.isSome_iff_ne_none] using hn)
            rw [hpush1 y hy l (hlne y hy)]
            exact .node _ _ (hkids true _ _ tks cx hF hl3 hsn' (by simp [hy]) (hpushD y hy l) h2)
        case eForLoop l p =>
          cases ks with
          | nil => simp [kidsOk] at hg
          | cons hd rest =>
            have hnb : ∀ H H', pend J H .plain hd = pend J H' .plain hd := by
              intro H H'
              refine pend_nobreak hd H H' .plain fun x hx => ?_
              have := List.all_eq_true.mp hl2 x hx
              simpa using this
            simp only [kidH, hthr, pendL, if_true, Nat.add_one_ne_zero, if_false] at h2 ⊢
            obtain ⟨hd', rest', rfl, h3, h4⟩ := alikeL_inv h2
            split
            · rename_i hn
              rw [hpush0 (by simpa using hn), hnb _ H]
              exact .node _ _ h2
            · rename_i hn
              obtain ⟨y, hy⟩ := Option.isSome_iff_exists.mp (by simpa [Option.isNone_iff_eq_none, Option.isSome_iff_ne_none] using hn)
              rw [hpush1 y hy l (hlne y hy), hnb _ (orH (push l true false H) (breakMatches label true))]
              refine .node _ _ ?_
              have := hkids true _ (push l true false H) (hd' :: rest') cx hF hl3 hsn' (by simp [hy])
                (hpushD y hy l) (by rw [pendL]; rw [hnb _ H]; exact .cons h3 h4)
              simpa only [pendL] using this
        case eBreak l => exact absurd ⟨l, rfl⟩ hb
        case eClosure => simpa only [kidH] using h
        case eAsync => simpa only [kidH] using h

end AutoEnums
