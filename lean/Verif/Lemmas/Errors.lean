import Verif.Lemmas.Args
import Verif.Lemmas.Visible
import Verif.Spec.Errors
import Verif.TraceVisit

/-! # Lemmas: which errors are recorded where -/

namespace AutoEnums

open Spec

theorem mapA_unmoved {σ : Type} {P : σ → Prop} {f : σ → Node → σ × Node}
    (h : ∀ s n, P s → P (f s n).1 ∧ (f s n).2 = n) : ∀ (l : List Node) (s : σ), P s →
      P (mapA f s l).1 ∧ (mapA f s l).2 = l
  | [], s, hs => ⟨hs, rfl⟩
  | n :: l, s, hs => by
    have h1 := h s n hs
    have h2 := mapA_unmoved h l _ h1.1
    exact ⟨h2.1, by simp only [mapA, h1.2, h2.2]⟩

theorem walk_unmoved {σ : Type} {P : σ → Prop} {f : σ → Node → σ × Node}
    (h : ∀ s n, P s → P (f s n).1 ∧ (f s n).2 = n) {s : σ} (hs : P s) (n : Node) :
      P (walk f s n).1 ∧ (walk f s n).2 = n := by
  obtain ⟨k, as, ks⟩ := n
  have := mapA_unmoved h ks s hs
  simp only [walk]
  cases k.isOpaque
  · exact ⟨this.1, by simp only [Bool.false_eq_true, if_false, this.2]⟩
  · exact ⟨hs, rfl⟩

theorem findRemoveAttrs_errs (sc : Scope) (cx : Cx) (n : Node) :
    cx.errs <+: (findRemoveAttrs sc cx n).1.errs :=
  (findRemoveAttrs_tr (env := { hash := fun _ => 0 }) sc cx n).errs_mono

theorem visitMarker_errs (sc : Scope) (cx : Cx) (n : Node) : cx.errs <+: (visitMarker sc cx n).1.errs := by
  have h : ∀ cx : Cx, cx.errs <+: (match n with
      | .mk (.eMacro p t) as ks =>
        if cx.isMarkerExact p then
          match ks with
          | [e] => if cx.hasError then (cx, e) else cx.nextExprAttrs as e
          | _ => (cx.error .markerParse, failedMarker)
        else (cx, .mk (.eMacro p t) as ks)
      | n => (cx, n)).1.errs := by
    intro cx
    split
    · split
      · split
        · split <;> simp [Cx.nextExprAttrs]
        · simp [Cx.error]
      · exact List.prefix_refl _
    · exact List.prefix_refl _
  have h2 : (cx.assert (!sc.foreign || cx.marker != DEFAULT_MARKER) .markerForeign).errs = cx.errs := by
    unfold Cx.assert Cx.panic
    split <;> rfl
  have := h (cx.assert (!sc.foreign || cx.marker != DEFAULT_MARKER) .markerForeign)
  rw [h2] at this
  exact this

theorem visitMode_markers (sc : Scope) (cx : Cx) (n : Node) :
    (visitMode sc cx n).1.markers = cx.markers := by
  unfold visitMode
  split
  · unfold visitReturn
    split
    · split
      · unfold Cx.replaceBoxed
        split
        · rfl
        · split <;> rfl
      · rfl
    · rfl
  · unfold visitTry
    split
    · split
      · split <;> rfl
      · rfl
    · rfl
  · rfl

/-- The attributes stay. -/
theorem visitMode_shape (sc : Scope) (cx : Cx) {n : Node} (hn : n.kind.hasAttrs = true) :
    (visitMode sc cx n).2.rawAttrs = n.rawAttrs ∧ (visitMode sc cx n).2.kind.hasAttrs = true := by
  unfold visitMode
  split
  · unfold visitReturn
    split
    · split
      · exact ⟨rfl, rfl⟩
      · exact ⟨rfl, hn⟩
    · exact ⟨rfl, hn⟩
  · unfold visitTry
    split
    · split
      · split <;> exact ⟨rfl, rfl⟩
      · exact ⟨rfl, hn⟩
    · exact ⟨rfl, hn⟩
  · exact ⟨rfl, hn⟩

theorem bears_find {a : Attr} {n : Node} (h : bears a n) :
    n.findRemoveAttr NAME = some (a, without n) := by
  obtain ⟨k, as, ks⟩ := n
  obtain ⟨hk, l1, l2, h1, h2, h3⟩ := h
  simp only [Node.kind, Node.rawAttrs] at hk h1
  simp only [Node.findRemoveAttr, hk, if_true, without, Node.kind, Node.rawAttrs, Node.kids]
  subst h1
  have : findRemove (·.is NAME) (l1 ++ a :: l2) = some (a, l1 ++ l2) ∧
      dropFirst (named "auto_enum") (l1 ++ a :: l2) = l1 ++ l2 := by
    induction l1 with
    | nil =>
      have h2' := h2
      rw [named_iff] at h2'
      simp [findRemove, dropFirst, h2, NAME, h2']
    | cons b l ih =>
      have hb := h3 b (by simp)
      have hb' := hb
      rw [named_iff] at hb'
      have := ih (fun b hb => h3 b (by simp [hb]))
      simp [findRemove, dropFirst, hb, hb', NAME] at this ⊢
      simp [this]
  rw [this.1, this.2]

/-- The errors after an expression with an inner attribute. -/
theorem vsVisitExpr_errors {env : Env} {rec : Rec} {vk : VK} {sc : Scope} {cx : Cx} {n : Node} {a : Attr}
    {toks : List Tok} {traits : List Path} {mk : Option Ident} {semi : Bool} (hcx : cx.errs = [])
    (ha : bears a n) (hf : a.form = .list toks) (hargs : IsArgs toks traits mk)
    (hmk : ∀ i, mk = some i → i ∉ cx.markers) :
    ∃ cx1 child : Cx, cx1.errs = [] ∧ Cx.new (env.hash (without n)) toks false cx.markers [] = .ok child ∧
      (vsVisitExpr env rec vk sc cx n semi).1.errs =
      (walk (rec vk sc) cx1 (without n)).1.errs ++
        (expandParentExpr env rec child (walk (rec vk sc) cx1 (without n)).2 semi).1.errs := by
  obtain ⟨child, hnew⟩ : ∃ child, Cx.new (env.hash (without n)) toks false cx.markers [] = .ok child := by
    unfold Cx.new
    rw [(parseArgs_iff _ _ _).mpr hargs]
    cases mk with
    | none => exact ⟨_, rfl⟩
    | some i =>
      have : cx.markers.contains i = false := by simpa using hmk i rfl
      simp only [this]
      exact ⟨_, rfl⟩
  refine ⟨(cx.makeChild (env.hash (without n)) toks).1, child, rfl, hnew, ?_⟩
  unfold vsVisitExpr
  simp only [bears_find ha, hf]
  have : (cx.makeChild (env.hash (without n)) toks).2 = .ok child := by
    unfold Cx.makeChild Cx.assert Cx.panic
    dsimp only
    split <;> simp only [hcx] <;> exact hnew
  rw [this]
  unfold Cx.joinChild Cx.assert Cx.panic
  dsimp only
  split <;> rfl

/-- The errors after a `let` with an inner attribute. -/
theorem vsVisitStmt_errors {env : Env} {rec : Rec} {vk : VK} {sc : Scope} {cx : Cx} {p : LetPat}
    {as : List Attr} {ks : List Node} {a : Attr}
    {toks : List Tok} {traits : List Path} {mk : Option Ident} (hcx : cx.errs = [])
    (ha : bears a (.mk (.sLocal p) as ks)) (hf : letArgs a.form = some toks)
    (hargs : IsArgs toks traits mk) (hmk : ∀ i, mk = some i → i ∉ cx.markers) :
    ∃ cx1 child : Cx, cx1.errs = [] ∧
      Cx.new (env.hash (without (.mk (.sLocal p) as ks))) toks false cx.markers [] = .ok child ∧
      (vsVisitStmt env rec vk sc cx (.mk (.sLocal p) as ks)).1.errs =
      (visitLocal rec vk sc cx1 (without (.mk (.sLocal p) as ks))).1.errs ++
        (expandParentStmt env rec child
          (visitLocal rec vk sc cx1 (without (.mk (.sLocal p) as ks))).2).1.errs := by
  obtain ⟨child, hnew⟩ : ∃ child,
      Cx.new (env.hash (without (.mk (.sLocal p) as ks))) toks false cx.markers [] = .ok child := by
    unfold Cx.new
    rw [(parseArgs_iff _ _ _).mpr hargs]
    cases mk with
    | none => exact ⟨_, rfl⟩
    | some i =>
      have : cx.markers.contains i = false := by simpa using hmk i rfl
      simp only [this]
      exact ⟨_, rfl⟩
  refine ⟨(cx.makeChild (env.hash (without (.mk (.sLocal p) as ks))) toks).1, child, rfl, hnew, ?_⟩
  unfold vsVisitStmt
  simp only [bears_find ha]
  have : (cx.makeChild (env.hash (without (.mk (.sLocal p) as ks))) toks).2 = .ok child := by
    unfold Cx.makeChild Cx.assert Cx.panic
    dsimp only
    split <;> simp only [hcx] <;> exact hnew
  cases hm : a.form <;> rw [hm] at hf <;> cases hf <;> simp only [this] <;>
    (unfold Cx.joinChild Cx.assert Cx.panic; dsimp only; split <;> rfl)

theorem assert_errs (cx : Cx) (b : Bool) (p : Panic) : (cx.assert b p).errs = cx.errs := by
  unfold Cx.assert Cx.panic
  split <;> rfl

theorem assert_markers (cx : Cx) (b : Bool) (p : Panic) : (cx.assert b p).markers = cx.markers := by
  unfold Cx.assert Cx.panic
  split <;> rfl

theorem bears_any {a : Attr} {n : Node} (h : bears a n) : n.anyAttr NAME = true :=
  (Node.findRemoveAttr_some (bears_find h)).2.2.1

/-- The errors after the visit of an expression with an inner attribute. -/
theorem visitExpr_errors {env : Env} {rec : Rec} {sc : Scope} {cx : Cx} {n : Node} {a : Attr}
    {toks : List Tok} {traits : List Path} {mk : Option Ident} {semi : Bool} (hcx : cx.errs = [])
    (ha : bears a n) (hf : a.form = .list toks) (hargs : IsArgs toks traits mk)
    (hmk : ∀ i, mk = some i → i ∉ cx.markers) :
    ∃ (sc1 : Scope) (cx0 cx1 child : Cx) (es : List Err), sc1.foreign = true ∧ cx1.errs = [] ∧
      Cx.new (env.hash (without (visitMode sc1 cx0 n).2)) toks false cx.markers [] = .ok child ∧
      (visitExpr env rec sc cx n semi).1.errs =
      (walk (rec .visitor sc1) cx1 (without (visitMode sc1 cx0 n).2)).1.errs ++
        (expandParentExpr env rec child
          (walk (rec .visitor sc1) cx1 (without (visitMode sc1 cx0 n).2)).2 semi).1.errs ++ es := by
  have hne := bears_any ha
  unfold visitExpr
  simp only [hne, if_true]
  generalize hsc : ({ sc with foreign := true } : Scope).check n.kind = sc1
  have hfor : sc1.foreign = true := by
    subst hsc
    unfold Scope.check
    cases n.kind <;> rfl
  generalize hcx0 : ({ cx.assert (!cx.hasError) .visitAfterError with hasChild := true } : Cx) = cx0
  have he0 : cx0.errs = [] := by subst hcx0; exact (assert_errs _ _ _).trans hcx
  have hm0 : cx0.markers = cx.markers := by subst hcx0; exact assert_markers _ _ _
  simp only [hfor, if_true]
  have ha1 : bears a (visitMode sc1 cx0 n).2 := by
    obtain ⟨hk, l1, l2, h1, h2⟩ := ha
    have := visitMode_shape sc1 cx0 hk
    exact ⟨this.2, l1, l2, this.1.trans h1, h2⟩
  obtain ⟨cx1, child, h1, h2, h3⟩ := vsVisitExpr_errors (env := env) (rec := rec) (vk := .visitor) (sc := sc1)
    (cx := (visitMode sc1 cx0 n).1) (semi := semi)
    ((visitMode_errs _ _ _).trans he0) ha1 hf hargs (by rw [visitMode_markers, hm0]; exact hmk)
  rw [visitMode_markers, hm0] at h2
  refine ⟨sc1, cx0, cx1, child, ?_⟩
  have hp : ∀ r : Cx × Node, r.1.errs <+: (if (!true || r.1.marker != DEFAULT_MARKER) = true then
      findRemoveAttrs sc1 (visitMarker sc1 r.1 r.2).1 (visitMarker sc1 r.1 r.2).2 else r).1.errs := by
    intro r
    split
    · exact (visitMarker_errs _ _ _).trans (findRemoveAttrs_errs _ _ _)
    · exact List.prefix_refl _
  obtain ⟨es, hes⟩ := hp (vsVisitExpr env rec .visitor sc1 (visitMode sc1 cx0 n).1 (visitMode sc1 cx0 n).2 semi)
  refine ⟨es, hfor, h1, h2, ?_⟩
  rw [← h3, hes]

theorem visitMode_elsewhere (sc : Scope) (cx : Cx) {n : Node} (h1 : n.kind ≠ .eReturn) (h2 : n.kind ≠ .eTry) :
    (visitMode sc cx n).2 = n := by
  unfold visitMode
  split
  · unfold visitReturn
    split
    · split
      · exact absurd rfl h1
      · rfl
    · rfl
  · unfold visitTry
    split
    · split
      · exact absurd rfl h2
      · rfl
    · rfl
  · rfl

end AutoEnums
