import Verif.Lemmas.MeaningCongr
import Verif.Lemmas.Skeleton

/-! # Edits cannot be seen through constructors (for C65) -/

namespace AutoEnums

open Spec Eval

variable {B S : Type} {M : Machine B S} {code : Code B S} {O : Observer B S} {marks : String → Bool} {f : Nat}

theorem meaningL_append (as bs : List Node) : meaningL M code marks f (as ++ bs) =
    meaningL M code marks f as ++ meaningL M code marks f bs := by
  induction as with
  | nil => rfl
  | cons a as ih => simp only [List.cons_append, meaningL, ih]

theorem dens_append {ds es ds' es' : List (Den B S)} (h : O.dens ds es) (h' : O.dens ds' es') :
    O.dens (ds ++ ds') (es ++ es') := by
  induction ds generalizing es with
  | nil =>
    cases es with
    | nil => exact h'
    | cons => exact h.elim
  | cons d ds ih =>
    cases es with
    | nil => exact h.elim
    | cons e es => exact ⟨h.1, ih h.2⟩

/-- `?` and `return` can be told apart, or there are no `try` blocks. -/
def Tame (O : Observer B S) (ls : List (Kind × List Attr)) : Prop := O.exits → ∀ l ∈ ls, l.1 ≠ .eTryBlock

section
variable (hB : Blind M code O)
include hB

set_option linter.unusedSectionVars false in
mutual
theorem meaning_self : ∀ (n : Node), Tame O (labels n) →
    O.den (meaning M code marks f n) (meaning M code marks f n)
  | .mk k as ks, h => by
    simp only [meaning]
    refine mean_congr hB (fun he => ?_) (fun _ => rfl) (meaningL_self ks fun he l hl => ?_)
    · exact h he (k, as) (by simp [labels])
    · exact h he l (by simp [labels, hl])
theorem meaningL_self : ∀ (ks : List Node), Tame O (labelsL ks) →
    O.dens (meaningL M code marks f ks) (meaningL M code marks f ks)
  | [], _ => trivial
  | n :: ns, h => ⟨meaning_self n fun he l hl => h he l (by simp [hl]),
      meaningL_self ns fun he l hl => h he l (by simp [hl])⟩
end

theorem dens_replace {pre post : List Node} {n n' : Node} (h1 : Tame O (labelsL pre)) (h2 : Tame O (labelsL post))
    (h : O.den (meaning M code marks f n) (meaning M code marks f n')) :
    O.dens (meaningL M code marks f (pre ++ n :: post)) (meaningL M code marks f (pre ++ n' :: post)) := by
  rw [meaningL_append, meaningL_append]
  exact dens_append (meaningL_self hB pre h1) ⟨h, meaningL_self hB post h2⟩

/-- A function that is evaluated and called. -/
theorem call_meaning {c : Value B} {w : Value B → Value B} {q : Bool} {p : Path} {as bs : List Attr} {e : Node}
    (h1 : ∀ s, M.step (.ePath q p) [] s = .done c s) (h2 : ∀ s, M.step .eCall [c] s = .kid 1 s)
    (h3 : ∀ v s, M.step .eCall [c, v] s = .done (w v) s) (x : Value B) (s : S) :
    meaning M code marks (f + 3) (.mk .eCall as [.mk (.ePath q p) bs [], e]) x s =
      andThen (meaning M code marks (f + 3) e x s) fun v s => some (.val (w v), s) := by
  simp only [meaning, meaningL, mean, under, List.map_cons, List.map_nil, other, hB.callee, kid,
    List.getElem?_cons_zero, h1, andThen, List.nil_append, h2, List.getElem?_cons_succ]
  rcases meaning M code marks (f + 3) e x s with _ | ⟨o, t⟩
  · rfl
  · cases o <;> simp [h3]

theorem construct_meaning (h i : Nat) : ∃ w : Value B → Value B, (∀ v, O.value v (w v)) ∧ ∀ as e x s,
    meaning M code marks (f + 3) (construct as ("__Enum" ++ toString h) ("__Variant" ++ toString i) e) x s =
      andThen (meaning M code marks (f + 3) e x s) fun v s => some (.val (w v), s) := by
  obtain ⟨c, w, h1, h2, h3, h4⟩ := hB.constructor h i
  exact ⟨w, h4, fun as e x s => call_meaning hB h1 h2 h3 x s⟩

/-- A constructor call looks like its argument. -/
theorem construct_looks {as : List Attr} {en vn : Ident} {e : Node} (hen : ∃ h : Nat, en = "__Enum" ++ toString h)
    (hvn : IsVariant vn) {d : Den B S} (hd : O.den d (meaning M code marks (f + 3) e)) :
    O.den d (meaning M code marks (f + 3) (construct as en vn e)) := by
  obtain ⟨h, rfl⟩ := hen
  obtain ⟨i, rfl⟩ := hvn
  obtain ⟨w, h1, h2⟩ := construct_meaning hB (marks := marks) (f := f) h i
  intro x y s t hx hs
  have h3 := hd x y s t hx hs
  rw [h2]
  generalize meaning M code marks (f + 3) e y t = r at h3 ⊢
  generalize d x s = r' at h3 ⊢
  rcases r with _ | ⟨o, t1⟩ <;> rcases r' with _ | ⟨o', s1⟩ <;> first
    | exact h3.elim
    | exact trivial
    | skip
  cases o <;> cases o' <;> first
    | exact h3.1.elim
    | exact ⟨hB.value_trans _ _ _ h3.1 (h1 _), h3.2⟩
    | exact h3

omit hB in
theorem labelled_none (r : Res B S) : labelled none r = r := by
  unfold labelled
  split <;> rfl

omit hB in
theorem andThen_val (r : Res B S) (g : Value B → S → Res B S) (hg : ∀ v s, g v s = some (.val v, s)) :
    andThen r g = r := by
  unfold andThen
  split
  · exact hg _ _
  · rfl

omit hB in
/-- A block that consists of an expression means that expression. -/
theorem tail_meaning {as bs : List Attr} {e : Node} (x : Value B) (s : S) :
    meaning M code marks f (.mk .block as [.mk (.sExpr false) bs [e]]) x s = meaning M code marks f e x s := by
  simp [meaning, meaningL, mean, under, stmts, kid]

omit hB in
/-- The declaration of an enum does nothing. -/
theorem enum_meaning (g : GenEnum) (ds : List (Den B S)) (x : Value B) (s : S) :
    stmts M (under x (meaning M code marks f (enumStmt g) :: ds)) s = stmts M (under x ds) s := by
  cases ds <;> simp [enumStmt, meaning, mean, under, stmts, andThen]

/-- An edit that does not desugar `?` cannot be seen, nor can one for which this is known. -/
theorem step_looks {A : Allow} (hA : A.Sane marks) {Fine : Node → Prop}
    (hkid : ∀ k as ns n, n ∈ ns → Fine (.mk k as ns) → Fine n) (htame : ∀ n, Fine n → Tame O (labels n))
    (htry : ∀ as en vn e, A.tries en → IsVariant vn → Fine (.mk .eTry as [e]) →
      O.den (meaning M code marks (f + 3) (.mk .eTry as [e])) (meaning M code marks (f + 3) (tryMatch as en vn e)))
    {n n' : Node} (h : Step A n n') (hn : Fine n) :
    O.den (meaning M code marks (f + 3) n) (meaning M code marks (f + 3) n') := by
  have hall : ∀ k as ns, Fine (.mk k as ns) → Tame O (labelsL ns) := fun k as ns hF he l hl =>
    htame _ hF he l (by simp [hl])
  have hself : ∀ n, Fine n → O.den (meaning M code marks (f + 3) n) (meaning M code marks (f + 3) n) :=
    fun n hF => meaning_self hB n (htame _ hF)
  induction h with
  | @wrapVal en vn k e rest as hw hv hk =>
    have hk' : k ≠ .eTryBlock ∧ k.isOpaque = false := by rcases hk with rfl | ⟨l, rfl⟩ <;> simp [Kind.isOpaque]
    refine mean_congr hB (fun _ => hk'.1) (fun ho => by simp [hk'.2] at ho) ?_
    exact ⟨construct_looks hB (hA.wraps _ hw) hv (hself _ (hkid _ _ _ _ (by simp) hn)),
      meaningL_self hB _ fun he l hl => hall _ _ _ hn he l (by simp [hl])⟩
  | @wrapArm en vn g p as e hw hv hg =>
    rw [meaning, meaning]
    refine mean_congr hB (fun _ => by simp) (fun ho => by simp [Kind.isOpaque] at ho) ?_
    refine dens_replace hB (fun he l hl => hall _ _ _ hn he l (by simp [hl])) (fun _ l hl => by simp at hl) ?_
    exact construct_looks hB (hA.wraps _ hw) hv (hself _ (hkid _ _ _ _ (by simp) hn))
  | @wrapBlock en vn k as ss hw hv hk =>
    have h1 : ∀ x s, meaning M code marks (f + 3) (.mk (.eBlock none) [] ss) x s =
        stmts M (under x (meaningL M code marks (f + 3) ss)) s := fun x s => labelled_none _
    have h2 := construct_looks hB (as := []) (marks := marks) (f := f) (hA.wraps _ hw) hv
      (meaning_self hB (.mk (.eBlock none) [] ss) fun he l hl => by
        rcases List.mem_cons.mp (by simpa using hl) with rfl | hl
        · simp
        · exact hall _ _ _ hn he l hl)
    have h3 : ∀ as' x s, meaning M code marks (f + 3)
        (.mk .block as' [.mk (.sExpr false) [] [construct [] en vn (.mk (.eBlock none) [] ss)]]) x s =
        meaning M code marks (f + 3) (construct [] en vn (.mk (.eBlock none) [] ss)) x s :=
      fun as' x s => tail_meaning x s
    intro x y s t hx hs
    have h4 := h2 x y s t hx hs
    rw [h1, ← h3 as] at h4
    rcases hk with rfl | ⟨l, rfl⟩
    · exact h4
    · exact labelled_congr (l := l) h4
  | @unit en vn k as hw hv hk =>
    have h1 := construct_looks hB (as := []) (marks := marks) (f := f) (e := .mk .eTuple [] []) (hA.wraps _ hw) hv
      (meaning_self hB _ fun _ l hl => by simp at hl; simp [hl])
    intro x y s t hx hs
    have h2 := h1 x y s t hx hs
    rw [show meaning M code marks (f + 3) (.mk .eTuple [] []) x s = some (.val (Eval.unit M), s) from rfl] at h2
    have h3 : ∀ (g : Value B → Outcome B), (∀ v w, O.value v w → O.outcome (g v) (g w)) → O.result
        (some (g (Eval.unit M), s)) (andThen (meaning M code marks (f + 3) (construct [] en vn (.mk .eTuple [] [])) y t)
          fun v s => some (g v, s)) := by
      intro g hg
      generalize meaning M code marks (f + 3) (construct [] en vn (.mk .eTuple [] [])) y t = r at h2 ⊢
      rcases r with _ | ⟨o, t'⟩
      · exact h2.elim
      · cases o <;> first | exact h2.1.elim | exact ⟨hg _ _ h2.1, h2.2⟩
    rcases hk with rfl | ⟨l, rfl⟩
    · exact h3 .ret fun _ _ h => h
    · exact h3 (.brk l) fun _ _ h => ⟨rfl, h⟩
  | @mark en m vn t as e hm hv =>
    have h1 : meaning M code marks (f + 3) (.mk (.eMacro ⟨false, [⟨m, none⟩]⟩ t) as [e]) =
        meaning M code marks (f + 3) e := by
      funext x s
      simp [meaning, meaningL, mean, isMark, (hA.marks _ _ hm).1, kid, under]
    rw [h1]
    exact construct_looks hB (hA.marks _ _ hm).2 hv (hself _ (hkid _ _ _ _ (by simp) hn))
  | tryOp hw hv => exact htry _ _ _ _ hw hv hn
  | dropAttr => exact hself _ hn
  | dropType => exact hself _ hn
  | enumExpr g e =>
    intro x y s t hx hs
    have h1 : meaning M code marks (f + 3) (.mk (.eBlock none) [] [enumStmt g, .mk (.sExpr false) [] [e]]) y t =
        meaning M code marks (f + 3) e y t := by
      have h2 := enum_meaning (M := M) (code := code) (marks := marks) (f := f + 3) g
        [meaning M code marks (f + 3) (.mk (.sExpr false) [] [e])] y t
      exact (labelled_none _).trans (h2.trans (tail_meaning (as := []) (bs := []) y t))
    rw [h1]
    exact hself _ hn x y s t hx hs
  | @enumFn name ret as asb ss g _ =>
    rw [meaning, meaning]
    refine mean_congr hB (fun _ => by simp) (fun ho => by simp [Kind.isOpaque] at ho) ?_
    refine ⟨?_, trivial⟩
    intro x y s t hx hs
    have h1 : meaning M code marks (f + 3) (.mk .block asb (enumStmt g :: ss)) y t =
        meaning M code marks (f + 3) (.mk .block asb ss) y t := enum_meaning g _ y t
    rw [h1]
    exact hself _ (hkid _ _ _ _ (by simp) hn) x y s t hx hs
  | @kid n n' k as pre post hk _ ih =>
    rw [meaning, meaning]
    refine mean_congr hB (fun he => htame _ hn he (k, as) (by simp)) (fun ho => by simp [hk] at ho) ?_
    exact dens_replace hB (fun he l hl => hall _ _ _ hn he l (by simp [hl]))
      (fun he l hl => hall _ _ _ hn he l (by simp [hl])) (ih (hkid _ _ _ _ (by simp) hn))

/-- The value of a variable. -/
theorem variable_looks {x : Ident} {u y : Value B} {s t t' : S} {as : List Attr}
    (h : M.step (variable_ x) [] s = .done u t') (hs : O.state s t) :
    ∃ v t1, meaning M code marks (f + 3) (.mk (variable_ x) as []) y t = some (.val v, t1) ∧ O.value u v ∧
      O.state t' t1 := by
  have h1 := hB.step (variable_ x) [] [] s t trivial hs
  rw [h] at h1
  have h2 : meaning M code marks (f + 3) (.mk (variable_ x) as []) y t =
      match M.step (variable_ x) [] t with
      | .kid i s => andThen (kid M [] i s) fun v s => other M (variable_ x) [] (f + 2) [v] s
      | .done v s => some (.val v, s)
      | .panic s => some (.panic, s) := rfl
  rw [h2]
  generalize M.step (variable_ x) [] t = r at h1 ⊢
  cases r with
  | kid => exact h1.elim
  | panic => exact h1.elim
  | done v t1 => exact ⟨v, t1, rfl, h1.1, h1.2⟩

/-- The desugared `?` of something like `Ok(u)`. -/
theorem tryMatch_ok (L : Errs M O) {as : List Attr} {en vn : Ident} {e : Node} {y w u : Value B} {t t1 : S}
    (he : meaning M code marks (f + 3) e y t = some (.val w, t1)) (hw : O.value (L.ok u) w) :
    ∃ v t2, meaning M code marks (f + 3) (tryMatch as en vn e) y t = some (.val v, t2) ∧ O.value u v ∧
      O.state t1 t2 := by
  obtain ⟨h1, h2⟩ := hB.test "::core::result::Result::Ok(val)" _ _ t1 t1 hw (hB.state_refl _)
  obtain ⟨h3, h4⟩ := L.okArm u t1
  obtain ⟨v, t2, h5, h6, h7⟩ := variable_looks hB (code := code) (marks := marks) (f := f) (y := w) (as := []) h4 h2
  refine ⟨v, t2, ?_, h6, h7⟩
  rw [h3] at h1
  have h8 : meaning M code marks (f + 3) (tryMatch as en vn e) y t =
      andThen (meaning M code marks (f + 3) e y t) fun v s => arms v [
        meaning M code marks (f + 3) (.mk (.arm "::core::result::Result::Ok(val)") [] [.mk (variable_ "val") [] []]),
        _] s := rfl
  rw [h8, he]
  have h9 : meaning M code marks (f + 3) (.mk (.arm "::core::result::Result::Ok(val)") []
      [.mk (variable_ "val") [] []]) w t1 = some (.val v, t2) := by
    rw [meaning]
    simp only [mean, arm, h1, if_true, meaningL, under, List.map_cons, List.map_nil]
    exact h5
  simp only [andThen, arms, h9]

/-- The desugared `?` of something like `Err(u)`. -/
theorem tryMatch_err (L : Errs M O) {as : List Attr} {en vn : Ident} {e : Node} {y w u : Value B} {t t1 : S}
    (hen : ∃ h : Nat, en = "__Enum" ++ toString h) (hvn : IsVariant vn)
    (he : meaning M code marks (f + 3) e y t = some (.val w, t1)) (hw : O.value (M.err u) w) :
    ∃ v t2, meaning M code marks (f + 3) (tryMatch as en vn e) y t = some (.ret v, t2) ∧ O.value (M.err u) v ∧
      O.state t1 t2 := by
  obtain ⟨h, rfl⟩ := hen
  obtain ⟨i, rfl⟩ := hvn
  obtain ⟨c, hc1, hc2⟩ := construct_meaning hB (marks := marks) (f := f) h i
  obtain ⟨h1, h2⟩ := hB.test "::core::result::Result::Ok(val)" _ _ t1 t1 hw (hB.state_refl _)
  rw [L.errMiss] at h1 h2
  obtain ⟨h3, h4⟩ := hB.test "::core::result::Result::Err(err)" _ _ _ _ hw h2
  obtain ⟨h5, h6⟩ := L.errArm u t1
  obtain ⟨v, t2, h7, h8, h9⟩ := variable_looks hB (code := code) (marks := marks) (f := f) (y := w) (as := []) h6 h4
  refine ⟨M.err (c v), t2, ?_, L.err _ _ (hB.value_trans _ _ _ h8 (hc1 v)), h9⟩
  rw [h5] at h3
  have h10 : meaning M code marks (f + 3) (tryMatch as ("__Enum" ++ toString h) ("__Variant" ++ toString i) e) y t =
      andThen (meaning M code marks (f + 3) e y t) fun v s => arms v [
        meaning M code marks (f + 3) (.mk (.arm "::core::result::Result::Ok(val)") [] [.mk (variable_ "val") [] []]),
        meaning M code marks (f + 3) (.mk (.arm "::core::result::Result::Err(err)") []
          [.mk (.eBlock none) [] [.mk (.sExpr true) [] [.mk .eReturn [] [.mk .eCall []
            [.mk (.ePath false ⟨true, ["core", "result", "Result", "Err"].map fun i => ⟨i, none⟩⟩) [] [],
              construct [] ("__Enum" ++ toString h) ("__Variant" ++ toString i) (.mk (variable_ "err") [] [])]]]]])]
        s := rfl
  have h11 : meaning M code marks (f + 3) (.mk (.arm "::core::result::Result::Ok(val)") []
      [.mk (variable_ "val") [] []]) w t1 = some (.miss, (M.test "::core::result::Result::Ok(val)" w t1).2) := by
    rw [meaning]
    simp only [mean, arm, h1, meaningL, under, List.map_cons, List.map_nil]
    simp
  rw [h10, he]
  have h12 : ∀ z s, meaning M code marks (f + 3) (.mk .eCall []
      [.mk (.ePath false ⟨true, ["core", "result", "Result", "Err"].map fun i => ⟨i, none⟩⟩) [] [],
        construct [] ("__Enum" ++ toString h) ("__Variant" ++ toString i) (.mk (variable_ "err") [] [])]) z s =
      andThen (andThen (meaning M code marks (f + 3) (.mk (variable_ "err") [] []) z s) fun v s => some (.val (c v), s))
        fun v s => some (.val (M.err v), s) := by
    intro z s
    rw [call_meaning hB L.path L.arg L.call, hc2]
  have h13 : meaning M code marks (f + 3) (.mk (.arm "::core::result::Result::Err(err)") []
      [.mk (.eBlock none) [] [.mk (.sExpr true) [] [.mk .eReturn [] [.mk .eCall []
        [.mk (.ePath false ⟨true, ["core", "result", "Result", "Err"].map fun i => ⟨i, none⟩⟩) [] [],
          construct [] ("__Enum" ++ toString h) ("__Variant" ++ toString i) (.mk (variable_ "err") [] [])]]]]]) w
      (M.test "::core::result::Result::Ok(val)" w t1).2 = some (.ret (M.err (c v)), t2) := by
    rw [meaning]
    simp only [mean, arm, h3, if_true, meaningL, under, List.map_cons, List.map_nil]
    rw [meaning]
    simp only [mean, meaningL, under, List.map_cons, List.map_nil, stmts]
    rw [meaning]
    simp only [mean, meaningL, under, List.map_cons, List.map_nil, kid, List.getElem?_cons_zero, if_true]
    rw [meaning]
    simp only [mean, meaningL, under, List.map_cons, List.map_nil, kid, List.getElem?_cons_zero, List.isEmpty_cons,
      Bool.false_eq_true, if_false]
    simp only [List.map_cons, List.map_nil] at h12
    rw [h12, h7]
    rfl
  simp only [andThen, arms, h11, h13]

/-- For an observer that does not distinguish `?` from `return`, the desugared `?` is like the original. -/
theorem try_looks (L : Errs M O) (hX : O.exits) {as : List Attr} {en vn : Ident} {e : Node}
    (hen : ∃ h : Nat, en = "__Enum" ++ toString h) (hvn : IsVariant vn) (ht : Tame O (labels e))
    (hq : ∀ x s v s', meaning M code marks (f + 3) e x s = some (.val v, s') →
      ∃ u, O.value v (L.ok u) ∨ O.value v (M.err u)) :
    O.den (meaning M code marks (f + 3) (.mk .eTry as [e])) (meaning M code marks (f + 3) (tryMatch as en vn e)) := by
  intro x y s t hx hs
  have h0 := meaning_self hB (marks := marks) (f := f + 3) e ht x y s t hx hs
  have h1 : meaning M code marks (f + 3) (.mk .eTry as [e]) x s =
      andThen (meaning M code marks (f + 3) e x s) fun v s =>
        if M.fails v then some (.fail v, s)
        else match M.step .eTry [v] s with
          | .done v s => some (.val v, s)
          | .kid _ s | .panic s => some (.panic, s) := rfl
  have h2 : ∃ g, meaning M code marks (f + 3) (tryMatch as en vn e) y t =
      andThen (meaning M code marks (f + 3) e y t) g := ⟨_, rfl⟩
  rw [h1]
  rcases hr : meaning M code marks (f + 3) e x s with _ | ⟨o, s1⟩ <;>
    rcases hr' : meaning M code marks (f + 3) e y t with _ | ⟨o', t1⟩
  · obtain ⟨g, h2⟩ := h2
    rw [h2, hr']
    trivial
  · rw [hr, hr'] at h0
    exact h0.elim
  · rw [hr, hr'] at h0
    exact h0.elim
  · rw [hr, hr'] at h0
    cases o with
    | val v =>
      cases o' with
      | val w =>
        obtain ⟨hv, hst⟩ := h0
        obtain ⟨u, hu | hu⟩ := hq x s v s1 hr
        · obtain ⟨v', t2, h3, h4, h5⟩ := tryMatch_ok hB L (as := as) (en := en) (vn := vn) hr'
            (hB.value_trans _ _ _ (hB.value_symm _ _ hu) hv)
          have h6 := hB.step .eTry [v] [L.ok u] s1 s1 ⟨hu, trivial⟩ (hB.state_refl _)
          rw [L.tryOk] at h6
          have h7 := hB.fails _ _ hu
          rw [L.fails_ok] at h7
          rw [h3]
          simp only [andThen, ← h7]
          generalize M.step .eTry [v] s1 = r at h6 ⊢
          cases r with
          | kid => exact h6.elim
          | panic => exact h6.elim
          | done v1 s2 =>
            exact ⟨hB.value_trans _ _ _ h6.1 h4, hB.state_trans _ _ _ h6.2 (hB.state_trans _ _ _ hst h5)⟩
        · obtain ⟨v', t2, h3, h4, h5⟩ := tryMatch_err hB L (as := as) (en := en) (vn := vn) hen hvn hr'
            (hB.value_trans _ _ _ (hB.value_symm _ _ hu) hv)
          have h7 := hB.fails _ _ hu
          rw [M.fails_err] at h7
          rw [h3]
          simp only [andThen, ← h7, if_true]
          exact ⟨⟨hX, hB.value_trans _ _ _ hu h4⟩, hB.state_trans _ _ _ hst h5⟩
      | _ => exact h0.1.elim
    | fail v =>
      obtain ⟨g, h2⟩ := h2
      rw [h2, hr']
      cases o' <;> first | exact h0.1.elim | exact h0
    | _ =>
      obtain ⟨g, h2⟩ := h2
      rw [h2, hr']
      cases o' <;> first | exact h0.1.elim | exact h0

end

/-! ## Edits that keep the number of `?` -/

/-- The number of `?` in some nodes. -/
def questionsL (ns : List Node) : Nat := (labelsL ns).countP fun l => l.1 == .eTry

theorem questions_mk (k : Kind) (as : List Attr) (ks : List Node) :
    questions (.mk k as ks) = questionsL ks + if k = .eTry then 1 else 0 := by
  rw [questions, labels_mk, List.countP_cons]
  by_cases h : k = .eTry <;> simp [h, questionsL]

theorem questionsL_nil : questionsL [] = 0 := rfl

theorem questionsL_cons (n : Node) (ns : List Node) : questionsL (n :: ns) = questions n + questionsL ns := by
  simp [questionsL, questions]

theorem questionsL_append (as bs : List Node) : questionsL (as ++ bs) = questionsL as + questionsL bs := by
  simp [questionsL]

theorem questions_construct (as : List Attr) (en vn : Ident) (e : Node) :
    questions (construct as en vn e) = questions e := by
  simp [construct, questions_mk, questionsL_cons, questionsL_nil]

/-- The same edits, but for the desugaring of `?`. -/
def Allow.noTry (A : Allow) : Allow := { A with tries := fun _ => False }

theorem step_questions {A : Allow} {n n' : Node} (h : Step A n n') :
    questions n' < questions n ∨ questions n' = questions n ∧ Step (Allow.noTry A) n n' := by
  induction h with
  | wrapVal hw hv hk => exact .inr ⟨by simp [questions_mk, questionsL_cons, questions_construct], .wrapVal hw hv hk⟩
  | wrapArm hw hv hg =>
    exact .inr ⟨by simp [questions_mk, questionsL_append, questionsL_cons, questions_construct], .wrapArm hw hv hg⟩
  | wrapBlock hw hv hk =>
    exact .inr ⟨by simp [questions_mk, questionsL_nil, questionsL_cons, questions_construct], .wrapBlock hw hv hk⟩
  | unit hw hv hk =>
    exact .inr ⟨by simp [questions_mk, questionsL_nil, questionsL_cons, questions_construct], .unit hw hv hk⟩
  | mark hm hv =>
    exact .inr ⟨by simp [questions_mk, questionsL_nil, questionsL_cons, questions_construct], .mark hm hv⟩
  | tryOp hw hv => exact .inl (by simp [tryMatch, questions_mk, questionsL_nil, questionsL_cons, questions_construct])
  | dropAttr h1 h2 h3 => exact .inr ⟨by simp [questions_mk], .dropAttr h1 h2 h3⟩
  | dropType h1 => exact .inr ⟨by simp [questions_mk], .dropType h1⟩
  | enumExpr g e hg =>
    exact .inr ⟨by simp [questions_mk, questionsL_nil, questionsL_cons, enumStmt], .enumExpr g e hg⟩
  | enumFn g hg =>
    exact .inr ⟨by simp [questions_mk, questionsL_nil, questionsL_cons, enumStmt], .enumFn g hg⟩
  | kid hk _ ih =>
    rcases ih with ih | ⟨ih, hs⟩
    · exact .inl (by simp only [questions_mk, questionsL_append, questionsL_cons]; omega)
    · exact .inr ⟨by simp [questions_mk, questionsL_append, questionsL_cons, ih], .kid hk hs⟩

theorem edit_questions {A : Allow} {n n' : Node} (h : Edit A n n') : questions n' ≤ questions n := by
  induction h with
  | refl => exact Nat.le_refl _
  | step _ hs ih => rcases step_questions hs with h | h <;> omega

theorem edit_noTry {A : Allow} {n n' : Node} (h : Edit A n n') (hq : questions n' = questions n) :
    Edit (Allow.noTry A) n n' := by
  induction h with
  | refl => exact .refl _
  | step he hs ih =>
    have h1 := edit_questions he
    rcases step_questions hs with h | ⟨h, h'⟩
    · omega
    · exact .step (ih (by omega)) h'

theorem edit_looks (hB : Blind M code O) (hX : ¬O.exits) {A : Allow} (hA : A.Sane marks)
    {n n' : Node} (h : Edit A n n') (hq : questions n' = questions n) :
    O.den (meaning M code marks (f + 3) n) (meaning M code marks (f + 3) n') := by
  have h1 := edit_noTry h hq
  have hA' : (Allow.noTry A).Sane marks := ⟨hA.wraps, fun _ h => h.elim, hA.marks⟩
  clear h hq
  induction h1 with
  | refl => exact meaning_self hB _ fun h => absurd h hX
  | step _ hs ih =>
    exact hB.den_trans ih (step_looks hB hA' (Fine := fun _ => True) (fun _ _ _ _ _ h => h)
      (fun _ _ h => absurd h hX) (fun _ _ _ _ h => h.elim) hs trivial)

/-! ## Edits that desugar `?` -/

section
variable {ok : Value B → Value B}

theorem questionsL_iff (ns : List Node) :
    QuestionsL M code marks O ok f ns ↔ ∀ n ∈ ns, Questions M code marks O ok f n := by
  induction ns with
  | nil => simp [QuestionsL]
  | cons n ns ih => simp [QuestionsL, ih]

theorem questions_kid (k : Kind) (as : List Attr) (ns : List Node) (n : Node) (hn : n ∈ ns)
    (h : Questions M code marks O ok f (.mk k as ns)) : Questions M code marks O ok f n := by
  rw [Questions] at h
  exact (questionsL_iff ns).mp h.2.2 n hn

mutual
theorem questions_tame : ∀ (n : Node), Questions M code marks O ok f n → Tame O (labels n)
  | .mk k as ks, h, he, l, hl => by
    rw [Questions] at h
    rcases List.mem_cons.mp (by simpa using hl) with rfl | hl
    · exact h.1
    · exact questionsL_tame ks h.2.2 he l hl
theorem questionsL_tame : ∀ (ns : List Node), QuestionsL M code marks O ok f ns → Tame O (labelsL ns)
  | [], _, _, l, hl => by simp at hl
  | n :: ns, h, he, l, hl => by
    rw [QuestionsL] at h
    rcases List.mem_append.mp (by simpa using hl) with hl | hl
    · exact questions_tame n h.1 he l hl
    · exact questionsL_tame ns h.2 he l hl
end

/-- Nodes other than `?` and `try` blocks. -/
theorem questions_plain {k : Kind} {as : List Attr} {ns : List Node} (h1 : k ≠ .eTryBlock) (h2 : k ≠ .eTry)
    (h : ∀ n ∈ ns, Questions M code marks O ok f n) : Questions M code marks O ok f (.mk k as ns) := by
  rw [Questions]
  exact ⟨h1, fun h => absurd h h2, (questionsL_iff ns).mpr h⟩

theorem questions_construct' {as : List Attr} {en vn : Ident} {e : Node} (h : Questions M code marks O ok f e) :
    Questions M code marks O ok f (construct as en vn e) := by
  refine questions_plain (by simp) (by simp) fun n hn => ?_
  simp at hn
  rcases hn with rfl | rfl
  · exact questions_plain (by simp) (by simp) (by simp)
  · exact h

theorem questions_enum (g : GenEnum) : Questions M code marks O ok f (enumStmt g) :=
  questions_plain (by simp) (by simp) (by simp)

theorem step_keeps (hB : Blind M code O) (L : Errs M O) (hX : O.exits) {A : Allow} (hA : A.Sane marks)
    {n n' : Node} (h : Step A n n') (hn : Questions M code marks O L.ok (f + 3) n) :
    O.den (meaning M code marks (f + 3) n) (meaning M code marks (f + 3) n') ∧
    Questions M code marks O L.ok (f + 3) n' := by
  have hlook : ∀ {n n'}, Step A n n' → Questions M code marks O L.ok (f + 3) n →
      O.den (meaning M code marks (f + 3) n) (meaning M code marks (f + 3) n') := fun h hn =>
    step_looks hB hA (Fine := Questions M code marks O L.ok (f + 3)) questions_kid questions_tame
      (fun as en vn e hen hvn hF => try_looks hB L hX (hA.tries _ hen) hvn
        (questions_tame _ (questions_kid _ _ _ _ (by simp) hF))
        (by rw [Questions] at hF; exact hF.2.1 rfl e (by simp))) h hn
  refine ⟨hlook h hn, ?_⟩
  induction h with
  | @wrapVal en vn k e rest as hw hv hk =>
    refine questions_plain (by rcases hk with rfl | ⟨l, rfl⟩ <;> simp) (by rcases hk with rfl | ⟨l, rfl⟩ <;> simp)
      fun n hm => ?_
    rcases List.mem_cons.mp hm with rfl | hm
    · exact questions_construct' (questions_kid _ _ _ _ (by simp) hn)
    · exact questions_kid _ _ _ _ (by simp [hm]) hn
  | wrapArm hw hv hg =>
    refine questions_plain (by simp) (by simp) fun n hm => ?_
    rcases List.mem_append.mp hm with hm | hm
    · exact questions_kid _ _ _ _ (by simp [hm]) hn
    · rw [List.mem_singleton.mp hm]
      exact questions_construct' (questions_kid _ _ _ _ (by simp) hn)
  | wrapBlock hw hv hk =>
    refine questions_plain (by rcases hk with rfl | ⟨l, rfl⟩ <;> simp) (by rcases hk with rfl | ⟨l, rfl⟩ <;> simp)
      fun n hm => ?_
    rw [List.mem_singleton.mp hm]
    refine questions_plain (by simp) (by simp) fun n hm => ?_
    rw [List.mem_singleton.mp hm]
    exact questions_construct' (questions_plain (by simp) (by simp) fun n hm => questions_kid _ _ _ _ hm hn)
  | unit hw hv hk =>
    refine questions_plain (by rcases hk with rfl | ⟨l, rfl⟩ <;> simp) (by rcases hk with rfl | ⟨l, rfl⟩ <;> simp)
      fun n hm => ?_
    rw [List.mem_singleton.mp hm]
    exact questions_construct' (questions_plain (by simp) (by simp) (by simp))
  | mark hm hv => exact questions_construct' (questions_kid _ _ _ _ (by simp) hn)
  | @tryOp en vn as e hw hv =>
    have he := questions_kid _ _ _ e (by simp) hn
    have hp : ∀ q p bs, Questions M code marks O L.ok (f + 3) (.mk (.ePath q p) bs []) := fun q p bs =>
      questions_plain (by simp) (by simp) (by simp)
    refine questions_plain (by simp) (by simp) fun n hm => ?_
    simp only [List.mem_cons, List.not_mem_nil, or_false] at hm
    rcases hm with rfl | rfl | rfl
    · exact he
    · exact questions_plain (by simp) (by simp) fun n hm => by rw [List.mem_singleton.mp hm]; exact hp _ _ _
    · refine questions_plain (by simp) (by simp) fun n hm => ?_
      rw [List.mem_singleton.mp hm]
      refine questions_plain (by simp) (by simp) fun n hm => ?_
      rw [List.mem_singleton.mp hm]
      refine questions_plain (by simp) (by simp) fun n hm => ?_
      rw [List.mem_singleton.mp hm]
      refine questions_plain (by simp) (by simp) fun n hm => ?_
      rw [List.mem_singleton.mp hm]
      refine questions_plain (by simp) (by simp) fun n hm => ?_
      simp only [List.mem_cons, List.not_mem_nil, or_false] at hm
      rcases hm with rfl | rfl
      · exact hp _ _ _
      · exact questions_construct' (hp _ _ _)
  | dropAttr => rw [Questions] at hn ⊢; exact hn
  | dropType => exact questions_plain (by simp) (by simp) fun n hm => questions_kid _ _ _ _ hm hn
  | enumExpr g e =>
    refine questions_plain (by simp) (by simp) fun n hm => ?_
    simp only [List.mem_cons, List.not_mem_nil, or_false] at hm
    rcases hm with rfl | rfl
    · exact questions_enum g
    · exact questions_plain (by simp) (by simp) fun n hm => by rw [List.mem_singleton.mp hm]; exact hn
  | @enumFn name ret as asb ss g _ =>
    refine questions_plain (by simp) (by simp) fun n hm => ?_
    rw [List.mem_singleton.mp hm]
    have hb := questions_kid _ _ _ (.mk .block asb ss) (by simp) hn
    refine questions_plain (by simp) (by simp) fun n hm => ?_
    rcases List.mem_cons.mp hm with rfl | hm
    · exact questions_enum g
    · exact questions_kid _ _ _ _ hm hb
  | @kid n n' k as pre post hk hs ih =>
    have hk1 := questions_kid _ _ _ n (by simp) hn
    have hk2 := ih hk1
    have hd := hlook hs hk1
    rw [Questions] at hn ⊢
    obtain ⟨h1, h2, h3⟩ := hn
    rw [questionsL_iff] at h3 ⊢
    refine ⟨h1, fun he m hm x s v s' hv => ?_, fun m hm => ?_⟩
    · have h4 : m = n' ∨ m ∈ pre ∨ m ∈ post := by
        simp at hm
        rcases hm with h | h | h <;> simp [h]
      rcases h4 with rfl | h4
      · have h5 := hd x x s s (hB.value_refl _) (hB.state_refl _)
        rw [hv] at h5
        rcases hr : meaning M code marks (f + 3) n x s with _ | ⟨o, t⟩
        · rw [hr] at h5
          exact h5.elim
        · rw [hr] at h5
          cases o <;> first
            | exact h5.1.elim
            | (obtain ⟨u, hu⟩ := h2 he n (by simp) x s _ t hr
               exact ⟨u, hu.imp (hB.value_trans _ _ _ (hB.value_symm _ _ h5.1))
                (hB.value_trans _ _ _ (hB.value_symm _ _ h5.1))⟩)
      · exact h2 he m (by rcases h4 with h | h <;> simp [h]) x s v s' hv
    · have h4 : m = n' ∨ m ∈ pre ∨ m ∈ post := by
        simp at hm
        rcases hm with h | h | h <;> simp [h]
      rcases h4 with rfl | h4
      · exact hk2
      · exact h3 m (by rcases h4 with h | h <;> simp [h])

theorem edit_keeps (hB : Blind M code O) (L : Errs M O) (hX : O.exits) {A : Allow} (hA : A.Sane marks)
    {n n' : Node} (h : Edit A n n') (hn : Questions M code marks O L.ok (f + 3) n) :
    O.den (meaning M code marks (f + 3) n) (meaning M code marks (f + 3) n') ∧
    Questions M code marks O L.ok (f + 3) n' := by
  induction h with
  | refl => exact ⟨meaning_self hB _ (questions_tame _ hn), hn⟩
  | step _ hs ih =>
    obtain ⟨h1, h2⟩ := ih
    obtain ⟨h3, h4⟩ := step_keeps hB L hX hA hs h2
    exact ⟨hB.den_trans h1 h3, h4⟩

end

end AutoEnums
