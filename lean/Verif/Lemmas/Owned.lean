import Verif.Lemmas.AloneVisit
import Verif.Lemmas.Analysed
import Verif.Spec.Owned

/-! # Inner attributes own their regions -/

namespace AutoEnums

open Spec

/-- The context of an attribute of its own. -/
theorem new_alone {h : Nat} {toks : List Tok} {ms : List String} {ch : Cx}
    (hnew : Cx.new h toks false ms [] = .ok ch) :
    ∃ c0, Cx.new h toks true [] [] = .ok c0 ∧ Par ms ch.marker (ms ++ [ch.marker]) [ch.marker] ∧
      Sim0 (ms ++ [ch.marker]) [ch.marker] ch c0 := by
  unfold Cx.new at hnew ⊢
  cases hp : parseArgs toks with
  | error e => rw [hp] at hnew; cases hnew
  | ok a =>
    rw [hp] at hnew
    dsimp only at hnew ⊢
    cases hm : a.marker with
    | none =>
      rw [hm] at hnew
      cases hnew
      exact ⟨_, rfl, .inr ⟨rfl, by simp⟩, true, [DEFAULT_MARKER], rfl, .inr ⟨rfl, rfl⟩,
        .inr ⟨rfl, rfl, by simp⟩⟩
    | some m =>
      rw [hm] at hnew
      dsimp only at hnew
      split at hnew
      · cases hnew
      · cases hnew
        exact ⟨_, rfl, .inr ⟨rfl, by simp⟩, true, [m], rfl, .inr ⟨rfl, rfl⟩, .inr ⟨rfl, rfl, by simp⟩⟩

theorem finish_sim {L l ms : List String} {o : String} {x y : Cx × Node} (h : Side ms o L l x y)
    (hc : Clean x.1) : finish y = .code x.2 := by
  obtain ⟨⟨r, l', h1, _⟩, h2, _⟩ := h
  obtain ⟨hc1, hc2⟩ := hc
  have e1 : y.1.errs = [] := by rw [h1]; exact hc1
  have e2 : y.1.panics = [] := by rw [h1]; exact hc2
  simp [finish, e1, e2, h2]

theorem autoEnum_alone {env : Env} {f h : Nat} {toks : List Tok} {ms : List String} {ch : Cx} {n : Node}
    (hnew : Cx.new h toks false ms [] = .ok ch) (hce : callsNone ms ch.marker (.ofIdents ["compile_error"]))
    (hn : Apart ms ch.marker n) (semi : Bool)
    (hc : Clean (expandParentExpr env (visit env f) ch n semi).1) :
    (semi = false → autoEnum env f h toks (.expr n) =
      .code (expandParentExpr env (visit env f) ch n semi).2) ∧
    ∀ as, (∀ a ∈ as, declaresNone ms a) → autoEnum env f h toks (.stmt (.mk (.sExpr semi) as [n])) =
      .code (.mk (.sExpr semi) as [(expandParentExpr env (visit env f) ch n semi).2]) := by
  obtain ⟨c0, h1, h2, h3⟩ := new_alone hnew
  refine ⟨?_, fun as ha => ?_⟩
  · rintro rfl
    simp only [autoEnum, h1, expandInput]
    exact finish_sim (expandParentExpr_sim (visit_sim hce env f) h2 h3 hn false) hc
  · simp only [autoEnum, h1, expandInput]
    have hn' : Apart ms ch.marker (.mk (.sExpr semi) as [n]) :=
      apart_mk.2 ⟨by simp, ha, by simpa using hn⟩
    exact finish_sim (expandParentStmt_sim (visit_sim hce env f) h2 h3 hn') hc

theorem autoEnum_alone_stmt {env : Env} {f h : Nat} {toks : List Tok} {ms : List String} {ch : Cx} {n : Node}
    (hnew : Cx.new h toks false ms [] = .ok ch) (hce : callsNone ms ch.marker (.ofIdents ["compile_error"]))
    (hn : Apart ms ch.marker n) (hc : Clean (expandParentStmt env (visit env f) ch n).1) :
    autoEnum env f h toks (.stmt n) = .code (expandParentStmt env (visit env f) ch n).2 := by
  obtain ⟨c0, h1, h2, h3⟩ := new_alone hnew
  simp only [autoEnum, h1, expandInput]
  exact finish_sim (expandParentStmt_sim (visit_sim hce env f) h2 h3 hn) hc

theorem viaFlow_attrs {J : Job} {ms : List String} {w : Where} {vn : Ident} {k k1 : Kind} {as as' : List Attr}
    {ks ks' ks1 : List Node} (hm : marked "never" as' = marked "never" as)
    (h : .mk k1 as ks1 = viaFlow J ms w vn k as ks ks') : .mk k1 as' ks1 = viaFlow J ms w vn k as' ks ks' := by
  unfold viaFlow at h ⊢
  rw [hm]
  split
  · dsimp only at h
    split
    · rename_i hc
      rw [if_pos hc] at h
      split
      · simp only at h; cases h; rfl
      · simp only at h; cases h; rfl
    · rename_i hc; rw [if_neg hc] at h; cases h; rfl
  · dsimp only at h
    split
    · dsimp only at h
      split
      · rename_i hc; rw [if_pos hc] at h; unfold tryMatch at h ⊢; cases h; rfl
      · rename_i hc; rw [if_neg hc] at h; cases h; rfl
    · rename_i hc
      split at h
      · exact absurd rfl (hc _)
      · cases h; rfl
  · rename_i h1 h2
    split at h
    · exact absurd rfl h1
    · exact absurd rfl h2
    · cases h; rfl

theorem never_dropFirst (as : List Attr) :
    marked "never" (dropFirst (named "auto_enum") as) = marked "never" as := by
  induction as with
  | nil => rfl
  | cons a as ih =>
    unfold dropFirst
    split
    · rename_i h
      have : marked "never" [a] = false := by
        rw [marked_never]
        rw [named_iff] at h
        simp only [anyEmptyAttr, List.any_cons, List.any_nil, Bool.or_false, Attr.is, Attr.isEmpty] at h ⊢
        rw [Bool.and_eq_false_iff]
        left
        cases h' : a.path.isIdent NEVER with
        | false => rfl
        | true =>
          rw [isIdent_iff] at h h'
          rw [h] at h'
          simp [NEVER] at h'
      simp only [marked_never, anyEmptyAttr, List.any_cons, List.any_nil, Bool.or_false] at this ⊢
      rw [this, Bool.false_or]
    · simp only [marked_never, anyEmptyAttr, List.any_cons] at ih ⊢
      rw [ih]

/-- The markers whose calls the attribute leaves alone. -/
def Cx.exempts (cx : Cx) : List String := cx.marker :: if cx.root then [] else cx.markers

theorem isMarker_exempts (cx : Cx) (p : Path) : cx.isMarker p = true ↔ ∃ m ∈ cx.exempts, p = ⟨false, [⟨m, none⟩]⟩ := by
  unfold Cx.isMarker Cx.exempts Cx.isMarkerExact
  dsimp only
  simp only [List.mem_cons, ← isIdent_iff]
  cases h : p.isIdent cx.marker with
  | true => simp [h]
  | false =>
    cases cx.root with
    | true => simp [h]
    | false => simp [h]

theorem isMarkerExpr_exempts (cx : Cx) (e : Node) (es : List Node) :
    cx.isMarkerExpr e = isCallOfAny cx.exempts (e :: es) := by
  obtain ⟨k, as, ks⟩ := e
  unfold Cx.isMarkerExpr
  split
  · rename_i p t _ _ h
    cases h
    rw [Bool.eq_iff_iff, isMarker_exempts]
    simp only [isCallOfAny, isCallOf, List.any_eq_true, beq_iff_eq]
  · rename_i h
    symm
    rw [isCallOfAny, List.any_eq_false]
    intro m _
    unfold isCallOf
    split
    · rename_i heq; cases heq; exact absurd rfl (h _ _ _ _)
    · simp

theorem bears_shape {n n1 : Node} {a : Attr} (h : bears a n) (h1 : n1.rawAttrs = n.rawAttrs)
    (h2 : n1.kind.hasAttrs = true) : bears a n1 := ⟨h2, by rw [h1]; exact h.2⟩

/-! ## Inner attributes on their own -/

theorem makeChild_new {cx cx1 ch : Cx} {h : Nat} {toks : List Tok} (hc : cx.errs = [])
    (hm : cx.makeChild h toks = (cx1, .ok ch)) : Cx.new h toks false cx.markers [] = .ok ch := by
  have e1 : (cx.makeChild h toks).2 = Cx.new h toks false cx.markers [] := by
    simp only [Cx.makeChild, assert_markers, assert_errs, hc]
  rw [← e1, hm]

theorem makeChild_job {vk : VK} {cx cx1 : Cx} {r : Except Err Cx} {h : Nat} {toks : List Tok}
    (hm : cx.makeChild h toks = (cx1, r)) : jobIn vk cx1 = jobIn vk cx ∧ cx1.markers = [] := by
  have e1 : (cx.makeChild h toks).1 = cx1 := by rw [hm]
  rw [← e1]
  constructor
  · simp only [jobIn, Cx.makeChild, Cx.assert, Cx.panic]
    split <;> rfl
  · rfl

theorem expandsApart {env : Env} {h : Nat} {toks : List Tok} {ms : List String} {ch ch' : Cx} {semi : Bool}
    {n n' : Node} (hk : n.kind.isExpr = true) (hnew : Cx.new h toks false ms [] = .ok ch)
    (hr : Ran env semi ch n ch' n') (hc : Clean ch') : ExpandsApart env ms toks semi n n' := by
  obtain ⟨f, hr⟩ := hr
  obtain ⟨mk, p1, _, p3, _⟩ := new_args hnew
  refine ⟨ch.args, mk, (parseArgs_iff _ _ _).mp p1, fun hce ha => ?_⟩
  have hm : ch.marker = mk.getD "marker" := p3
  rw [← hm] at hce ha
  have := autoEnum_alone hnew hce ha semi (env := env) (f := f) (by rw [hr]; exact hc)
  rw [hr] at this
  refine ⟨f, h, ?_⟩
  have e1 : asInput semi n = if semi then .stmt (.mk (.sExpr true) [] [n]) else .expr n := by
    unfold asInput
    split
    · rename_i h; rw [h] at hk; cases hk
    · rfl
  have e2 : asOutput semi n n' = if semi then .code (.mk (.sExpr true) [] [n']) else .code n' := by
    unfold asOutput
    split
    · rename_i h; rw [h] at hk; cases hk
    · rfl
  rw [e1, e2]
  cases semi with
  | false => exact this.1 rfl
  | true => exact this.2 [] (by simp)

theorem expandsApart_stmt {env : Env} {h : Nat} {toks : List Tok} {ms : List String} {ch ch' : Cx} {semi : Bool}
    {n n' : Node} {p : LetPat} (hk : n.kind = .sLocal p) (hnew : Cx.new h toks false ms [] = .ok ch)
    (hr : RanStmt env ch n ch' n') (hc : Clean ch') : ExpandsApart env ms toks semi n n' := by
  obtain ⟨f, hr⟩ := hr
  obtain ⟨mk, p1, _, p3, _⟩ := new_args hnew
  refine ⟨ch.args, mk, (parseArgs_iff _ _ _).mp p1, fun hce ha => ?_⟩
  have hm : ch.marker = mk.getD "marker" := p3
  rw [← hm] at hce ha
  have := autoEnum_alone_stmt hnew hce ha (env := env) (f := f) (by rw [hr]; exact hc)
  rw [hr] at this
  refine ⟨f, h, ?_⟩
  simp only [asInput, asOutput, hk]
  exact this

theorem apart_none (o : String) (n : Node) : Apart [] o n := by
  induction n using Node.ind with
  | h k as ks ih =>
    refine apart_mk.2 ⟨fun p t _ m hm => by simp at hm, fun a _ _ m hm => by simp at hm, ?_⟩
    exact ih

theorem expands_of_apart {env : Env} {toks : List Tok} {semi : Bool} {n n' : Node}
    (h : ExpandsApart env [] toks semi n n') : Expands env toks semi n n' := by
  obtain ⟨traits, mk, _, h⟩ := h
  exact h (fun m hm => by simp at hm) (apart_none _ _)

/-! ## What happens to a node with an inner attribute -/

theorem viaMarker_other {J : Job} {vn : Ident} {k : Kind} {as : List Attr} {ks : List Node}
    (h : ∀ p t, k ≠ .eMacro p t) : viaMarker J vn (.mk k as ks) = .mk k as ks := by
  unfold viaMarker
  split
  · rename_i heq; cases heq; exact absurd rfl (h _ _)
  · rfl

theorem viaFlow_other {J : Job} {ms : List String} {w : Where} {vn : Ident} {k : Kind} {as : List Attr} {ks ks' : List Node}
    (h1 : k ≠ .eReturn) (h2 : k ≠ .eTry) : viaFlow J ms w vn k as ks ks' = .mk k as ks' := by
  unfold viaFlow
  split
  · exact absurd rfl h1
  · exact absurd rfl h2
  · rfl

/-- An idle visitor changes nothing. -/
theorem flow_idle (cx : Cx) (ms : List String) (w : Where) (vn : Ident) (k : Kind) (as : List Attr) (ks ks' : List Node) :
    viaFlow (jobIn .dummy cx) ms w vn k as ks ks' = .mk k as ks' := by
  unfold viaFlow
  split
  · simp [jobIn]
  · split
    · simp [jobIn]
    · rfl
  · rfl

theorem marker_idle (cx : Cx) (vn : Ident) (n : Node) : viaMarker (jobIn .dummy cx) vn n = n := by
  unfold viaMarker
  split
  · rw [if_neg (by simp [jobIn])]
  · rfl

theorem innerAttr_isSome {k : Kind} {as : List Attr} {ks : List Node} (hk : k.isExpr = true)
    (h : (Node.mk k as ks).anyAttr NAME = true) : (innerAttr k as).isSome = true := by
  cases hf : (Node.mk k as ks).findRemoveAttr NAME with
  | none =>
    rw [anyAttr_of_none hf (fun b hb => by simp only [Node.kind] at hb; subst hb; cases hk)] at h
    cases h
  | some r =>
    obtain ⟨a, n1⟩ := r
    rw [innerAttr_of_findRemove (k := k) (isExpr_mayCarry (n := .mk k as ks) hk hf) hf]
    rfl

theorem findRemove_without {n n1 : Node} {a : Attr} (h : n.findRemoveAttr NAME = some (a, n1)) :
    n1 = without n := by
  have hk := (Node.findRemoveAttr_some h).1
  have hb : bears a n := by
    refine ⟨hk, ?_⟩
    obtain ⟨k, as, ks⟩ := n
    simp only [Node.kind] at hk
    simp only [Node.findRemoveAttr, hk, if_true] at h
    split at h
    · rename_i b bs hb
      simp only [Option.some.injEq, Prod.mk.injEq] at h
      obtain ⟨rfl, _⟩ := h
      obtain ⟨h1, l1, l2, h2, _, h3⟩ := findRemove_some hb
      refine ⟨l1, l2, h2, by rw [named_iff]; exact h1, fun x hx => ?_⟩
      rw [named_iff]
      exact h3 x hx
    · cases h
  rw [bears_find hb] at h
  cases h
  rfl

theorem innerAttr_same {k k' : Kind} {as : List Attr} {a : Attr} (h : (innerAttr k as).isSome = true)
    (h' : innerAttr k' as = some a) : innerAttr k as = some a := by
  unfold innerAttr at h h' ⊢
  split
  · rename_i hk
    split at h'
    · exact h'
    · cases h'
  · rename_i hk
    rw [if_neg hk] at h
    cases h

/-- A node with an inner attribute, given what has become of its kids. -/
theorem child_region {X : Expansion} {vk : VK} {sc : Scope} {cx cx2 : Cx} {k : Kind} {as : List Attr} {ks0 ks : List Node} {n1 n3 : Node}
    {attr : Attr} {ms : List String} {w : Where} (hk : k.isExpr = true)
    (hn : (Node.mk k as ks0).anyAttr NAME = true)
    (hf : (pre vk (enter vk sc (.mk k as ks0)) cx (.mk k as ks0)).2.findRemoveAttr NAME = some (attr, n1))
    (hpost : Clean (post vk (enter vk sc (.mk k as ks0)) cx2 n3).1)
    (hm : vk = .visitor → ∀ e es, cx.isMarkerExpr e = isCallOfAny ms (e :: es))
    (hj : jobIn vk cx2 = jobIn vk cx) (hw : Placed vk sc w)
    (hks : OutsideL X (jobIn vk cx) (w.enter k) false n1.sub ks) :
    innerAttr k as = some attr ∧ (n1.rebuild ks).kind.isExpr = true ∧ 
    ∃ ks' vn vn', (if hidesCode k then ks' = ks0 else OutsideL X (jobIn vk cx) (w.enter k) (endsIn k) ks0 ks') ∧
      IsVariant vn ∧ IsVariant vn' ∧
      n1.rebuild ks = viaFlow (jobIn vk cx) ms (w.enter k) vn k (dropFirst (named "auto_enum") as) ks0 ks' ∧
      (post vk (enter vk sc (.mk k as ks0)) cx2 n3).2 = viaMarker (jobIn vk cx) vn' n3 := by
  have hek : endsIn k = false := by cases k <;> first | rfl | cases hk
  have hid := findRemove_without hf
  subst hid
  cases vk with
  | dummy =>
    have e1 : (pre .dummy (enter .dummy sc (.mk k as ks0)) cx (.mk k as ks0)).2 = .mk k as ks0 := rfl
    rw [e1] at hf hks ⊢
    refine ⟨innerAttr_of_findRemove (isExpr_mayCarry (n := .mk k as ks0) hk hf) hf, ?_,
      (if k.isOpaque then ks0 else ks), variantIdent 0, variantIdent 0, ?_, variant_is 0, variant_is 0, ?_, ?_⟩
    · rw [rebuild_kind]; exact hk
    · rw [hidesCode_eq]
      cases h : k.isOpaque with
      | true => simp
      | false => simpa [without, Node.sub, Node.kind, Node.kids, h, hek] using hks
    · rw [flow_idle]
      simp only [without, Node.rebuild, Node.kind, Node.rawAttrs, Node.kids]
      split <;> rfl
    · rw [marker_idle]; rfl
  | visitor =>
    have e0 : enter .visitor sc (.mk k as ks0) = ({ sc with foreign := true } : Scope).check k := by
      simp [enter, hn, Node.kind]
    rw [e0] at hf hpost hks ⊢
    have hw' : Placed .visitor (({ sc with foreign := true } : Scope).check k) (w.enter k) :=
      Placed.check (sc := { sc with foreign := true }) hw k
    have hf' : (({ sc with foreign := true } : Scope).check k).foreign = true := by
      cases k <;> rfl
    revert hf hpost hks hw' hf'
    generalize (({ sc with foreign := true } : Scope).check k) = sc1
    intro hpost hf hks hw' hf'
    have e1 : pre .visitor sc1 cx (.mk k as ks0) =
        visitMode sc1 { cx with hasChild := true } (.mk k as ks0) := by
      simp [pre, seen, hn, nestedStep, hf']
    rw [e1] at hf hks ⊢
    have hs0 : Same cx { cx with hasChild := true } :=
      ⟨⟨rfl, rfl, rfl, rfl, rfl, List.prefix_refl _⟩, rfl, rfl, rfl⟩
    have hj0 : jobIn .visitor { cx with hasChild := true } = jobIn .visitor cx := jobIn_same hs0
    obtain ⟨vn', hvn', hp⟩ := post_region hf' _ hpost
    rw [hj] at hp
    have hreg := visitMode_region (X := X) (cx := { cx with hasChild := true }) hw' (ms := ms) (hm rfl) k as ks0
    rw [hj0, hek] at hreg
    obtain ⟨vn, hvn, hat, hop, hreg⟩ := hreg
    have hsh : (visitMode sc1 { cx with hasChild := true } (.mk k as ks0)).2.kind.isExpr = true := by
      have := pre_isExpr .visitor sc1 cx (.mk k as ks0) hk
      rwa [e1] at this
    have hin : innerAttr k as = some attr := by
      refine innerAttr_same (innerAttr_isSome hk hn) ?_ (k' := (visitMode sc1 { cx with hasChild := true } (.mk k as ks0)).2.kind)
      have hf1 := hf
      revert hf1 hsh hat
      generalize (visitMode sc1 { cx with hasChild := true } (.mk k as ks0)).2 = m
      obtain ⟨k1, as1, ks2⟩ := m
      intro hat hsh hf1
      cases hat
      exact innerAttr_of_findRemove (isExpr_mayCarry hsh hf1) hf1
    refine ⟨hin, ?_, ?_⟩
    · rw [rebuild_kind]; exact hsh
    by_cases hopa : k.isOpaque = true
    · have hne : k ≠ .eReturn ∧ k ≠ .eTry := by
        constructor
        · intro h; rw [h] at hopa; cases hopa
        · intro h; rw [h] at hopa; cases hopa
      have e2 := visitMode_elsewhere sc1 { cx with hasChild := true } (n := .mk k as ks0) hne.1 hne.2
      rw [e2] at hks ⊢
      refine ⟨ks0, vn, vn', ?_, hvn, hvn', ?_, hp⟩
      · rw [hidesCode_eq]; simp [hopa]
      · rw [viaFlow_other hne.1 hne.2]
        simp only [without, Node.rebuild, Node.kind, hopa, if_true, Node.rawAttrs, Node.kids]
    · have hopa' : k.isOpaque = false := by simpa using hopa
      rw [hopa'] at hop
      have hat' : (visitMode sc1 { cx with hasChild := true } (.mk k as ks0)).2.rawAttrs = as := hat
      clear hf hat
      revert hks hreg hop hat'
      generalize (visitMode sc1 { cx with hasChild := true } (.mk k as ks0)).2 = m
      obtain ⟨k1, as1, ks2⟩ := m
      intro hks hop hreg hat'
      simp only [Node.rawAttrs, Node.kind, Node.kids] at hat' hop hreg
      subst hat'
      simp only [without, Node.sub, Node.kind, Node.rawAttrs, Node.kids, hop, Bool.false_eq_true, if_false] at hks
      obtain ⟨ks', h6, h7⟩ := hreg _ hks
      have h8 := viaFlow_attrs (never_dropFirst as1) h7
      refine ⟨ks', vn, vn', ?_, hvn, hvn', ?_, hp⟩
      · rw [hidesCode_eq]; simpa [hopa, hek] using h6
      · simpa only [without, Node.rebuild, Node.kind, hop, Bool.false_eq_true, if_false, Node.rawAttrs] using h8

/-! ## Regions -/

/-- What each judgement says about code in a region. -/
def Judg.Out (env : Env) : Judg → Prop
  | one vk sc cx n _ n' => cx.markers = [] → (vk = .visitor → sc.foreign = true) →
      ∀ w, Placed vk sc w → Outside (Expands env) (jobIn vk cx) w false n n'
  | many vk sc cx ns _ ns' => cx.markers = [] → (vk = .visitor → sc.foreign = true) →
      ∀ w, Placed vk sc w → OutsideL (Expands env) (jobIn vk cx) w false ns ns'
  | expr vk sc semi cx n _ n' => cx.markers = [] → (vk = .visitor → sc.foreign = true) →
      n.kind.isExpr = true → ∀ w, Placed vk sc w → Outside (Expands env) (jobIn vk cx) w semi n n'
  | part vk sc cx n _ n' => cx.markers = [] → (vk = .visitor → sc.foreign = true) →
      ∀ w, Placed vk sc w → ∃ ks, n' = n.rebuild ks ∧ OutsideL (Expands env) (jobIn vk cx) w false n.sub ks
  | _ => True

theorem Outside_of_kids {X : Expansion} {J : Job} {w : Where} {semi : Bool} {k : Kind} {as : List Attr} {ks ks' : List Node}
    {vn vn' : Ident} (h1 : IsVariant vn) (h2 : IsVariant vn') (hi : innerAttr k as = none)
    (hks : OutsideL X J (w.enter k) (endsIn k) (Node.mk k as ks).sub ks') :
    Outside X J w semi (.mk k as ks) (viaMarker J vn' (viaFlow J [J.marker] (w.enter k) vn k as ks
      (if k.isOpaque then ks else ks'))) := by
  rw [Outside_mk]
  refine .inr ⟨if k.isOpaque then ks else ks', vn, vn', ?_, h1, h2, ?_⟩
  · rw [hidesCode_eq]
    cases h : k.isOpaque with
    | true => simp
    | false => simpa [Node.sub, h] using hks
  · rw [Via, hi]

theorem innerAttr_off {k : Kind} {as : List Attr} {ks : List Node} (h : (Node.mk k as ks).findRemoveAttr NAME = none) :
    innerAttr k as = none := by
  unfold innerAttr
  split
  · rename_i hk
    simp only [Node.findRemoveAttr, mayCarry_hasAttrs hk, if_true] at h
    split at h
    · cases h
    · rename_i hb
      rw [findRemove_none, List.any_eq_false] at hb
      rw [List.find?_eq_none]
      intro x hx
      rw [named_iff]
      exact hb x hx
  · rfl

theorem letArgs_eq (m : Meta) : letArgs m = childToks m := by cases m <;> rfl

theorem rebuild_eq (k : Kind) (as : List Attr) (ks ks' : List Node) :
    (Node.mk k as ks).rebuild ks' = .mk k as (if k.isOpaque then ks else ks') := by
  unfold Node.rebuild; dsimp only; split <;> rfl

theorem ranStmt_local {env : Env} {ch ch' : Cx} {n n' : Node} {p : LetPat} (hk : n.kind = .sLocal p)
    (h : RanStmt env ch n ch' n') : ∃ q, n'.kind = .sLocal q := by
  obtain ⟨f, h⟩ := h
  obtain ⟨k, as, ks⟩ := n
  cases hk
  have h := congrArg Prod.snd h
  simp only [expandParentStmt, expandParentLocal] at h
  subst h
  split
  · refine ⟨(localAnalysis env ch p).2, ?_⟩
    simp only [dummyWalk, walk, Kind.isOpaque, Bool.false_eq_true, if_false, Node.kind]
  · split
    · exact ⟨_, rfl⟩
    · exact ⟨_, rfl⟩

/-- A `let` with an inner attribute. -/
theorem local_region {X X' : Expansion} {vk : VK} {cx : Cx} {p : LetPat} {n n1 n2 n3 : Node}
    {attr : Attr} {toks : List Tok} {ms : List String} {w : Where} {ks : List Node} {semi : Bool}
    (hk : n.kind = .sLocal p) (hf : n.findRemoveAttr NAME = some (attr, n1))
    (ht : childToks attr.form = some toks) (h3 : ∃ q, n3.kind = .sLocal q)
    (e2 : n2 = n1.rebuild ks) (hks : OutsideL X (jobIn vk cx) w false n1.sub ks)
    (hx : X' toks semi n2 n3) :
    (innerAttr n.kind n.rawAttrs).isSome = true ∧
    ∃ ks' vn vn', (if hidesCode n.kind then ks' = n.kids
        else OutsideL X (jobIn vk cx) (w.enter n.kind) (endsIn n.kind) n.kids ks') ∧
      IsVariant vn ∧ IsVariant vn' ∧
      Via X' (jobIn vk cx) ms (w.enter n.kind) semi vn vn' n.kind n.rawAttrs n.kids ks' n3 := by
  obtain ⟨k, as, ks0⟩ := n
  cases hk
  have hid := findRemove_without hf
  subst hid
  subst e2
  have hin : innerAttr (.sLocal p) as = some attr := innerAttr_of_findRemove rfl hf
  simp only [Node.kind, Node.rawAttrs, Node.kids]
  refine ⟨by rw [hin]; rfl, ks, variantIdent 0, variantIdent 0, hks, variant_is 0, variant_is 0, ?_⟩
  rw [Via, hin]
  refine ⟨toks, n3, by rw [letArgs_eq]; exact ht, hx, ?_⟩
  obtain ⟨k3, as3, ks3⟩ := n3
  obtain ⟨q, h3⟩ := h3
  cases h3
  rfl

theorem Run.out {env : Env} {j : Judg} (h : Run env j) : j.Out env := by
  induction h with
  | nil => intro _ _ w _; exact OutsideL_nil.2 rfl
  | @cons vk sc cx n cx1 n' ns cx2 ns' h1 h2 ih1 ih2 =>
    intro hm hf w hw
    have hs := (Run.keeps h1)
    refine OutsideL_cons.2 ⟨_, _, rfl, ih1 hm hf w hw, ?_⟩
    have := ih2 (hs.markers.trans hm) hf w hw
    rwa [jobIn_same hs] at this
  | @plain cx vk sc n cx2 ks semi hc hc1 hn hr hrun _ hpost ih =>
    intro hm hf hk w hw
    have hn' : n.anyAttr NAME = false := by
      cases h : n.anyAttr NAME with
      | false => rfl
      | true => obtain ⟨b, hb⟩ := hn h; rw [hb] at hk; cases hk
    obtain ⟨k, as, ks0⟩ := n
    have hek : endsIn k = false := by
      simp only [Node.kind] at hk; cases k <;> first | rfl | cases hk
    have hin : innerAttr k as = none := innerAttr_off (Node.findRemoveAttr_none hn')
    cases vk with
    | dummy =>
      have e1 : pre .dummy (enter .dummy sc (.mk k as ks0)) cx (.mk k as ks0) = (cx, .mk k as ks0) := by
        simp [pre, seen, hn']
      rw [e1] at ih hpost
      simp only [e1, post]
      have := Outside_of_kids (semi := semi) (variant_is 0) (variant_is 0) hin
        (by rw [hek]; exact ih hm (by simp) (w.enter k) (by simp [Placed]))
      rw [flow_idle, marker_idle] at this
      rw [rebuild_eq]
      exact this
    | visitor =>
      have hf := hf rfl
      have e0 : enter .visitor sc (.mk k as ks0) = sc.check k := by simp [enter, hn', Node.kind]
      have hf' : (sc.check k).foreign = true := by cases k <;> simpa [Scope.check] using hf
      have e1 : pre .visitor (sc.check k) cx (.mk k as ks0) = visitMode (sc.check k) cx (.mk k as ks0) := by
        simp [pre, seen, hn', nestedStep, hf']
      have hk2 := Run.keeps hrun
      simp only [Judg.Keeps, e0, e1] at hk2
      simp only [Judg.Out, e0, e1] at hpost ih ⊢
      have hw' := Placed.check hw k
      obtain ⟨vn, hvn, ha, ho, hks⟩ := visitMode_region (X := Expands env) hw' (isMarkerExpr_regionL hm) k as ks0
      have hs1 := visitMode_kept (sc.check k) cx (.mk k as ks0)
      have hs2 := hs1.trans hk2
      obtain ⟨vn', hvn', hp⟩ := post_region hf' _ hpost
      rw [hp, jobIn_same hs2]
      have this := ih (hs1.markers.trans hm) (fun _ => hf') (w.enter k) hw'
      rw [jobIn_same hs1] at this
      cases hop : k.isOpaque with
      | true =>
        rw [visitMode_elsewhere _ _ (by rintro rfl; cases hop) (by rintro rfl; cases hop)]
        refine Outside_mk.2 (.inr ⟨ks0, variantIdent 0, vn', ?_, variant_is 0, hvn', ?_⟩)
        · rw [hidesCode_eq, hop, if_pos rfl]
        · simp only [Node.rebuild, hop, if_true]
          rw [Via, hin]
          simp only
          rw [viaFlow_other (by rintro rfl; cases hop) (by rintro rfl; cases hop)]
      | false =>
        rw [hop] at ho
        revert ho hks ha this
        obtain ⟨k1, as1, ks1⟩ := (visitMode (sc.check k) cx (.mk k as ks0)).2
        intro ha ho hks this
        simp only [Node.kind, Node.rawAttrs, Node.kids] at ho ha hks
        subst ha
        simp only [Node.sub, ho, Bool.false_eq_true, if_false] at this
        obtain ⟨ks', h1, h2⟩ := hks _ (by rw [hek]; exact this)
        refine Outside_mk.2 (.inr ⟨ks', vn, vn', ?_, hvn, hvn', ?_⟩)
        · rw [hidesCode_eq, hop, if_neg (by simp)]; exact h1
        · simp only [Node.rebuild, ho, Bool.false_eq_true, if_false]
          rw [Via, hin]
          simp only
          rw [h2]
          rfl
  | @child cx vk sc n attr n1 toks cx1 ch cx2 ks semi ch' n3 hc hc1 hn hf ha hm _ _ hr1 _ _ hch hj hp hran ih1 _ =>
    intro hmk hfo hk w hw
    obtain ⟨k, as, ks0⟩ := n
    simp only [Node.kind] at hk
    have hs := pre_same vk (enter vk sc (.mk k as ks0)) cx (.mk k as ks0)
    obtain ⟨hj1, hm1⟩ := makeChild_job (vk := vk) hm
    have hjp := jobIn_same (vk := vk) hs
    have hfo' : vk = .visitor → (enter vk sc (.mk k as ks0)).foreign = true := by
      rintro rfl
      simp only [enter, hn, if_true, Node.kind]
      cases k <;> rfl
    have hw' : Placed vk (enter vk sc (.mk k as ks0)) (w.enter k) := by
      cases vk with
      | dummy => intro h; cases h
      | visitor =>
        simp only [enter, hn, if_true, Node.kind]
        exact Placed.check (sc := { sc with foreign := true }) hw k
    have hks := ih1 hm1 hfo' (w.enter k) hw'
    rw [hj1, hjp] at hks
    have hj2 : jobIn vk (cx2.joinChild ch') = jobIn vk cx := by
      rw [← hjp, ← hj1, ← jobIn_same (Run.keeps hr1)]
      unfold Cx.joinChild Cx.assert Cx.panic jobIn
      dsimp only
      split <;> rfl
    obtain ⟨hin, hke, ks', vn, vn', g1, g2, g3, g4, g5⟩ := child_region hk hn hf hp
      (fun h => by subst h; exact isMarkerExpr_regionL hmk) hj2 hw hks
    have hnew := makeChild_new hc1.1 hm
    have hx := expandsApart hke hnew hran hch
    have hmk' : (pre vk (enter vk sc (.mk k as ks0)) cx (.mk k as ks0)).1.markers = [] := hs.markers.trans hmk
    rw [hmk'] at hx
    have hx := expands_of_apart hx
    refine Outside_mk.2 (.inr ⟨ks', vn, vn', g1, g2, g3, ?_⟩)
    rw [Via, hin]
    refine ⟨toks, n3, by rw [ha]; rfl, ?_, g5⟩
    have e : [cx.marker] = [(jobIn vk cx).marker] ∨ vk = .dummy := by
      cases vk
      · exact .inl rfl
      · exact .inr rfl
    rcases e with e | rfl
    · rw [← e, ← g4]; exact hx
    · rw [flow_idle] at g4 ⊢; rw [← g4]; exact hx
  | @part cx vk sc n cx2 ks _ _ _ _ _ ih =>
    intro hm hf w hw
    have e1 : preSub vk sc cx n = (cx, n) := by
      cases vk with
      | dummy => rfl
      | visitor => simp only [preSub, hf rfl, if_true]
    have e2 : ∀ c x, postSub vk sc c x = (c, x) := by
      intro c x
      cases vk with
      | dummy => rfl
      | visitor => simp only [postSub, findRemoveAttrs, hf rfl, if_true]
    rw [e1] at ih
    rw [e1, e2]
    exact ⟨ks, rfl, ih hm hf w hw⟩
  | oneExpr hk _ ih => intro hm hf w hw; exact ih hm hf hk w hw
  | @oneStmt vk sc semi cx e cx' e' as _ ih =>
    intro hm hf w hw
    by_cases he : e.kind.isExpr = true
    · have := ih hm hf he w hw
      refine Outside_mk.2 (.inr ⟨[e'], variantIdent 0, variantIdent 0, ?_, variant_is 0, variant_is 0, ?_⟩)
      · exact OutsideL_cons.2 ⟨_, _, rfl, this, OutsideL_nil.2 rfl⟩
      · rfl
    · refine Outside_mk.2 (.inl ?_)
      simp [oddStatement, isExprNode_eq', he]
  | @oneArm vk sc cx n cx' n' p hk _ ih =>
    intro hm hf w hw
    obtain ⟨k, as, ks0⟩ := n
    cases hk
    obtain ⟨ks, rfl, h⟩ := ih hm hf w hw
    exact Outside_of_kids (vn := variantIdent 0) (vn' := variantIdent 0) (variant_is 0) (variant_is 0) rfl h
  | @oneLocal vk sc cx n cx' n' p hk hn _ ih =>
    intro hm hf w hw
    obtain ⟨k, as, ks0⟩ := n
    cases hk
    obtain ⟨ks, rfl, h⟩ := ih hm hf w hw
    exact Outside_of_kids (vn := variantIdent 0) (vn' := variantIdent 0) (variant_is 0) (variant_is 0)
      (innerAttr_off (Node.findRemoveAttr_none hn)) h
  | @oneLocalChild cx attr n1 toks n cx1 ch vk sc cx2 n2 ch' n3 p hk hn hc hf ht hm _ _ hr1 _ _ hch hj hran ih1 _ =>
    intro hmk hfo w hw
    obtain ⟨hj1, hm1⟩ := makeChild_job (vk := vk) hm
    have hjs : jobIn vk (seen cx n) = jobIn vk cx := by unfold seen; split <;> rfl
    have hms : (seen cx n).markers = [] := by unfold seen; split <;> exact hmk
    have hes : (seen cx n).errs = [] := by unfold seen; split <;> exact hc.1
    have hfo' : vk = .visitor → (enterS vk sc n).foreign = true := by
      rintro rfl
      simp only [enterS, hn, if_true]
    have hw' : Placed vk (enterS vk sc n) w := by
      cases vk with
      | dummy => intro h; cases h
      | visitor => simp only [enterS, hn, if_true]; exact hw
    obtain ⟨ks, e2, hks⟩ := ih1 hm1 hfo' w hw'
    rw [hj1, hjs] at hks
    have hnew := makeChild_new hes hm
    have hk2 : n2.kind = .sLocal p := by
      rw [e2, rebuild_kind, findRemove_without hf]; exact hk
    have hx := expandsApart_stmt (semi := false) hk2 hnew hran hch
    rw [hms] at hx
    have hx := expands_of_apart hx
    obtain ⟨_, ks', vn, vn', g1, g2, g3, g4⟩ := local_region (ms := [(jobIn vk cx).marker]) hk hf ht
      (ranStmt_local hk2 hran) e2 hks hx
    obtain ⟨k, as, ks0⟩ := n
    exact Outside_mk.2 (.inr ⟨ks', vn, vn', g1, g2, g3, g4⟩)
  | @oneBlock vk sc cx cx' ks n h1 h2 h3 _ ih =>
    intro hm hf w hw
    obtain ⟨k, as, ks0⟩ := n
    simp only [Node.kind] at h1 h2
    have e : w.enter k = w := by cases k <;> first | rfl | cases h1
    have hi : innerAttr k as = none := by
      apply innerAttr_off (ks := ks0)
      apply Node.findRemoveAttr_none (n := .mk k as ks0)
      cases k <;> first
        | (simp [Kind.isExpr] at h1; done) | (simp [Kind.isStmt] at h2; done) | exact absurd rfl (h3 _) | rfl
    have he : endsIn k = false := by cases k <;> first | rfl | cases h2
    have := Outside_of_kids (semi := false) (vn := variantIdent 0) (vn' := variantIdent 0) (variant_is 0) (variant_is 0) hi
      (by rw [e, he]; exact ih hm hf w hw)
    rw [viaFlow_other, viaMarker_other] at this
    · rw [rebuild_eq]
      exact this
    all_goals (intros; rintro rfl; cases h1)
  | @oneInert n cx vk sc h1 h2 h3 _ =>
    intro hm hf w hw
    obtain ⟨k, as, ks0⟩ := n
    simp only [Node.kind] at h1 h2
    refine Outside_mk.2 ?_
    cases k <;> first
      | (simp [Kind.isStmt] at h1; done) | exact absurd rfl (h2 _) | skip
    · refine .inl ?_
      unfold oddStatement
      match ks0 with
      | [] => rfl
      | [e] => exact absurd rfl (fun h => h3 _ _ _ h)
      | _ :: _ :: _ => simp
    all_goals exact .inr ⟨ks0, variantIdent 0, variantIdent 0, rfl, variant_is 0, variant_is 0, rfl⟩
  | exprDummy => trivial
  | exprBuild => trivial
  | target => trivial
  | targetExit => trivial
  | buildExpr => trivial
  | buildClosure => trivial
  | _ => trivial

end AutoEnums
