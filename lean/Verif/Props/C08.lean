import Verif.Lemmas.FlowApi
import Verif.Lemmas.Whole
import Verif.Examples

/-! # C08, C09, C10 and C11: `return` and `?` -/

namespace AutoEnums

open Judg Spec

theorem root_cx {env : Env} {fuel h : Nat} {toks : List Tok} {input : Input} {out : Node}
    {traits : List Path} {marker : Option Ident} (ha : IsArgs toks traits marker)
    (hrun : autoEnum env fuel h toks input = .code out) :
    ∃ cx cx', cx.args = traits ∧ cx.marker = marker.getD "marker" ∧ cx.ident = "__Enum" ++ toString h ∧
      cx.root = true ∧ Fresh cx ∧
      ((∃ n, input = .stmt n ∧ Run env (onStmt cx n cx' out)) ∨
        ∃ n, input = .expr n ∧ Run env (onExpr false cx n cx' out)) := by
  obtain ⟨cx, cx', hnew, _, _, h1⟩ := code_run hrun
  obtain ⟨m, p1, p2, p3, _, p4, _⟩ := new_args hnew
  rw [(parseArgs_iff _ _ _).mpr ha] at p1
  cases p1
  exact ⟨cx, cx', rfl, p3, p2, p4, new_fresh hnew, h1⟩

theorem at_root : At {} {} := ⟨rfl, rfl, rfl⟩

theorem free_of {n : Node} (h : ∀ a ∈ allAttrs n, named "auto_enum" a = false) : Free n := h

theorem impl_mode {env : Env} {cx : Cx} (hf : Fresh cx) (bs : List (Option Path)) (tks : List Ty)
    (b : Node) : ∃ c, (fnAnalysis env cx (some (.mk (.implTrait bs) tks)) b).mode = .ret c ∧
      (fnAnalysis env cx (some (.mk (.implTrait bs) tks)) b).ident = cx.ident ∧
      (fnAnalysis env cx (some (.mk (.implTrait bs) tks)) b).marker = cx.marker := by
  have hk := fnAnalysis_kept (env := env) (cx := cx) (ret := some (.mk (.implTrait bs) tks)) (b := b) rfl
  refine ⟨(visitFn cx b).return_, ?_, hk.ident, hk.marker⟩
  have : (cx.lastMode == VisitLastMode.never) = false := by rw [hf.lastMode]; rfl
  unfold fnAnalysis
  dsimp only
  split <;> simp [Cx.collectImplTrait, retMode, this]

/-- C08: in a function returning `impl Trait` with an attribute that names a trait, the `return`s
and `?`s before and after expansion correspond one to one; every `return` that belongs to the
function, has no `#[never]` and whose value is no marker call gets a constructor of the function's
enum as its value, everything else is left alone. -/
theorem C08_return (env : Env) (fuel h : Nat) (toks : List Tok) (traits : List Path)
    (marker : Option Ident) (ha : IsArgs toks traits marker) (ht : traits ≠ [])
    (name : String) (bs : List (Option Path)) (tks : List Ty) (as asb : List Attr) (ss : List Node)
    (inp out : Node) (hin : inp = .mk (.iFn name (some (.mk (.implTrait bs) tks))) as [.mk .block asb ss])
    (hrun : autoEnum env fuel h toks (.stmt inp) = .code out) :
    Aligned (Exit.RetFate ("__Enum" ++ toString h) (marker.getD "marker"))
      (exits false {} inp) (exits false {} out) := by
  obtain ⟨cx, cx', h1, h2, h3, h4, h5, h6⟩ := root_cx ha hrun
  rcases h6 with ⟨n, h6, hr⟩ | ⟨n, h6, _⟩
  · cases h6
    subst hin
    obtain ⟨c, m1, m2, m3⟩ := impl_mode (env := env) h5 bs tks (.mk .block asb ss)
    rcases fn_flow false h4 (fun h => by cases h) hr {} at_root with ⟨_, g⟩ | ⟨_, g⟩
    · exact absurd (h1.symm.trans (g (by rw [m1]; simp)).1) ht
    · refine g.imp fun a b hab => ?_
      unfold fate at hab
      rw [m1, m2, m3, h2, h3] at hab
      exact hab
  · cases h6

/-- C08: when the traits are inferred, either the same holds or no `return` is touched; the latter
only happens if no trait is named and either none is inferred, or there are fewer than two
`return`s to wrap. -/
theorem C08_return_inferred (env : Env) (fuel h : Nat) (toks : List Tok) (traits : List Path)
    (marker : Option Ident) (ha : IsArgs toks traits marker)
    (name : String) (bs : List (Option Path)) (tks : List Ty) (as asb : List Attr) (ss : List Node)
    (inp out : Node) (hin : inp = .mk (.iFn name (some (.mk (.implTrait bs) tks))) as [.mk .block asb ss])
    (hrun : autoEnum env fuel h toks (.stmt inp) = .code out) :
    Aligned (Exit.RetFate ("__Enum" ++ toString h) (marker.getD "marker"))
      (exits false {} inp) (exits false {} out) ∨
    Aligned Exit.Kept (exits false {} inp) (exits false {} out) ∧ traits = [] ∧
      (inferredFor env.typeAnalysis traits inp = [] ∨
        (shaped inp = true → ourCount .ret (marker.getD "marker") (exits false {} inp) < 2)) := by
  obtain ⟨cx, cx', h1, h2, h3, h4, h5, h6⟩ := root_cx ha hrun
  rcases h6 with ⟨n, h6, hr⟩ | ⟨n, h6, _⟩
  · cases h6
    subst hin
    obtain ⟨c, m1, m2, m3⟩ := impl_mode (env := env) h5 bs tks (.mk .block asb ss)
    rcases fn_flow false h4 (fun h => by cases h) hr {} at_root with ⟨g, hd⟩ | ⟨_, g⟩
    · obtain ⟨d1, d2⟩ := hd (by rw [m1]; simp)
      refine .inr ⟨g, h1.symm.trans d1, ?_⟩
      rcases d2 with d2 | ⟨c', d2, d3⟩
      · rw [(fnAnalysis_traits h5 name _ as [.mk .block asb ss] _).1, h1] at d2
        exact .inl d2
      · refine .inr fun hs => ?_
        have hsb : shaped (.mk .block asb ss) = true := by
          simp only [shaped, shapedL, Bool.and_true] at hs ⊢; exact hs
        rw [fnAnalysis_mode, Option.map_some, Option.getD_some, retMode_eq h5] at d2
        cases d2
        rw [exits_iFn, ← h2, ← (fnCount_exits h4 false _ {} hsb rfl rfl).1]
        exact d3
    · refine .inl (g.imp fun a b hab => ?_)
      unfold fate at hab
      rw [m1, m2, m3, h2, h3] at hab
      exact hab
  · cases h6

/-- What happens to the `return`s and `?`s of an attributed closure. -/
def Spec.ClosureFate (en : Ident) (m : String) (b : Node) : Exit → Exit → Prop :=
  if 2 ≤ ourCount .try_ m (exits false {} b) then Exit.TryFate m else Exit.RetFate en m

theorem closure_fate {cx : Cx} (hr : cx.root = true) {b : Node} (hs : shaped b = true) :
    fate (closureCx cx b) = ClosureFate cx.ident cx.marker b := by
  have h := (fnCount_exits hr false b {} hs rfl rfl).2
  funext x y
  unfold ClosureFate fate closureCx visitFn
  dsimp only
  rw [h]
  by_cases h2 : 2 ≤ ourCount .try_ cx.marker (exits false {} b)
  · simp [h2]
  · simp [h2]

theorem built_closure (cx : Cx) (e : Node) :
    built cx e = e ∨ ∃ g, built cx e = exprBlock [.mk (.sItem g) [] [], tailS e] := by
  unfold built
  split
  · exact .inl rfl
  · exact .inr ⟨_, rfl⟩

/-- C08, C10, C11: in an attributed closure with two or more `?` to rewrite these are desugared and
the `return`s left alone; in any other attributed closure the `return`s are wrapped. -/
theorem C08_closure (env : Env) (fuel h : Nat) (toks : List Tok) (traits : List Path)
    (marker : Option Ident) (ha : IsArgs toks traits marker) (ht : traits ≠ [])
    (i : String) (as : List Attr) (b out : Node) (hs : shaped b = true)
    (hrun : autoEnum env fuel h toks (.expr (.mk (.eClosure i) as [b])) = .code out) :
    ∃ b', (out = .mk (.eClosure i) as [b'] ∨
        ∃ g, out = exprBlock [.mk (.sItem g) [] [], tailS (.mk (.eClosure i) as [b'])]) ∧
      Aligned (ClosureFate ("__Enum" ++ toString h) (marker.getD "marker") b)
        (exits false {} b) (exits false {} b') := by
  obtain ⟨cx, cx', h1, h2, h3, h4, h5, h6⟩ := root_cx ha hrun
  rcases h6 with ⟨n, h6, _⟩ | ⟨n, h6, hr⟩
  · cases h6
  · cases h6
    have hl : cx.visitLast = true := by simp [Cx.visitLast, h5.mode, h5.lastMode]
    cases hr with
    | exprDummy hd _ =>
      simp only [Bool.false_eq_true, if_false, Cx.isDummy, Bool.and_eq_true, List.isEmpty_iff, h1] at hd
      exact absurd hd.1 ht
    | exprBuild _ hb =>
      simp only [Bool.false_eq_true, if_false] at hb
      obtain ⟨b', e1, e2⟩ := closure_flow false h4 hl (.inr (by rw [h1]; exact ht)) (fun h => by cases h) hb
      refine ⟨b', ?_, ?_⟩
      · rcases built_closure cx' (.mk (.eClosure i) as [b']) with e | ⟨g, e⟩
        · exact .inl (e1.trans e)
        · exact .inr ⟨g, e1.trans e⟩
      · rw [← h2, ← h3, ← closure_fate h4 hs]
        exact e2 {} at_root

/-- The same for a closure that initialises a `let` variable. -/
theorem C08_let_closure (env : Env) (fuel h : Nat) (toks : List Tok) (traits : List Path)
    (marker : Option Ident) (ha : IsArgs toks traits marker) (ht : traits ≠ [])
    (p : LetPat) (asl : List Attr) (i : String) (as : List Attr) (b out : Node) (els : List Node)
    (hs : shaped b = true)
    (hrun : autoEnum env fuel h toks
      (.stmt (.mk (.sLocal p) asl (.mk (.eClosure i) as [b] :: els))) = .code out) :
    ∃ p' init' b', out = .mk (.sLocal p') asl (init' :: els) ∧
      (init' = .mk (.eClosure i) as [b'] ∨
        ∃ g, init' = exprBlock [.mk (.sItem g) [] [], tailS (.mk (.eClosure i) as [b'])]) ∧
      Aligned (ClosureFate ("__Enum" ++ toString h) (marker.getD "marker") b)
        (exits false {} b) (exits false {} b') := by
  obtain ⟨cx, cx', h1, h2, h3, h4, h5, h6⟩ := root_cx ha hrun
  rcases h6 with ⟨n, h6, hr⟩ | ⟨n, h6, _⟩
  · cases h6
    cases hr with
    | stmtLocalDummy hp hd _ =>
      have := (localAnalysis_kept hp).args
      simp only [Cx.isDummy, Bool.and_eq_true, List.isEmpty_iff, this, h1] at hd
      exact absurd hd.1 ht
    | @stmtLocal _ _ cx1 p1 _ _ e' _ _ hp hd hb =>
      have hk := localAnalysis_kept hp
      have hm : cx1.mode = cx.mode ∧ cx1.lastMode = cx.lastMode := by
        have : (localAnalysis env cx p).1.mode = cx.mode ∧
            (localAnalysis env cx p).1.lastMode = cx.lastMode := by
          unfold localAnalysis
          split
          · split <;> exact ⟨rfl, rfl⟩
          · exact ⟨rfl, rfl⟩
        rw [hp] at this; exact this
      have hl : cx1.visitLast = true := by simp [Cx.visitLast, hm.1, hm.2, h5.mode, h5.lastMode]
      obtain ⟨b', e1, e2⟩ := closure_flow false (hk.root.trans h4) hl
        (.inr (by rw [hk.args, h1]; exact ht)) (fun h => by cases h) hb
      refine ⟨p1, e', b', rfl, ?_, ?_⟩
      · rcases built_closure cx' (.mk (.eClosure i) as [b']) with e | ⟨g, e⟩
        · exact .inl (e1.trans e)
        · exact .inr ⟨g, e1.trans e⟩
      · rw [← h2, ← h3, ← hk.ident, ← hk.marker, ← closure_fate (hk.root.trans h4) hs]
        exact e2 {} at_root
    | stmtInert _ h _ _ _ => exact absurd rfl (h _)
  · cases h6

theorem not_ours_kept {cx : Cx} {a b : Exit} (h : fate cx a b)
    (hl : a.loc.closure = true ∨ a.kind = .try_ ∧ a.loc.tryBlock = true) : a.Kept b := by
  unfold fate at h
  split at h
  · exact h
  · unfold Exit.RetFate at h
    rw [if_neg] at h
    · exact h
    · rcases hl with hl | hl
      · simp [Exit.ours, hl]
      · simp [hl.1]
  · unfold Exit.TryFate at h
    rw [if_neg] at h
    · exact h
    · rcases hl with hl | hl
      · simp [Exit.ours, hl]
      · simp [hl.2]

/-- C09: a `return` or `?` in a closure, and a `?` in a `try` block, is left alone; nested items are
left alone by C04.  Missing: `async` blocks (`a.loc.asyncBlock`), for which the claim is false (`C09_async_fails`); inner
`auto_enum` attributes, which rewrite the `return`s of their own closures, are excluded. -/
theorem C09_inner_scopes_partial (env : Env) (fuel h : Nat) (toks : List Tok) (traits : List Path)
    (marker : Option Ident) (ha : IsArgs toks traits marker)
    (name : String) (ret : Option Ty) (as asb : List Attr) (ss : List Node)
    (inp out : Node) (hin : inp = .mk (.iFn name ret) as [.mk .block asb ss])
    (hfree : ∀ a ∈ allAttrs inp, named "auto_enum" a = false)
    (hrun : autoEnum env fuel h toks (.stmt inp) = .code out) :
    Aligned (fun a b => a.loc.closure = true ∨ a.kind = .try_ ∧ a.loc.tryBlock = true → a.Kept b)
      (exits true {} inp) (exits true {} out) := by
  obtain ⟨cx, cx', h1, h2, h3, h4, h5, h6⟩ := root_cx ha hrun
  rcases h6 with ⟨n, h6, hr⟩ | ⟨n, h6, _⟩
  · cases h6
    subst hin
    rcases fn_flow true h4 (fun _ => hfree) hr {} at_root with ⟨g, _⟩ | ⟨_, g⟩
    · refine g.imp fun a b hab => ?_
      exact fun _ => hab
    · exact g.imp fun a b hab hl => not_ours_kept hab hl
  · cases h6

/-- The type `Result<T, impl ..>`. -/
def Spec.IsResultImpl (ty : Ty) : Prop :=
  ∃ p t bs tks, IsResult p ∧
    ty = .mk (.path false p (some false)) [.mk .argType t, .mk .argType [.mk (.implTrait bs) tks]]

theorem result_mode {env : Env} {cx : Cx} (hf : Fresh cx) (hr : cx.root = true) {ty : Ty}
    (hty : IsResultImpl ty) {b : Node} (hs : shaped b = true) :
    (fnAnalysis env cx (some ty) b).mode =
        (if 2 ≤ ourCount .try_ cx.marker (exits false {} b) then .try_ else .default) ∧
      (fnAnalysis env cx (some ty) b).ident = cx.ident ∧
      (fnAnalysis env cx (some ty) b).marker = cx.marker := by
  have hk := fnAnalysis_kept (env := env) (cx := cx) (ret := some ty) (b := b) rfl
  refine ⟨?_, hk.ident, hk.marker⟩
  obtain ⟨p, t, bs, tks, hp, rfl⟩ := hty
  have : (cx.lastMode == VisitLastMode.never) = false := by rw [hf.lastMode]; rfl
  have hc := (fnCount_exits hr false b {} hs rfl rfl).2
  have hq := (pathEq_result p).mpr hp
  unfold fnAnalysis
  dsimp only
  split <;> simp [Cx.collectImplTrait, retMode, this, hq, visitFn, hc, hf.mode]

/-- C10, C11: in a function returning `Result<T, impl Trait>` whose body contains two or more `?`s
of the function itself (not annotated `#[never]`, not applied to a marker call), every such `?`
outside `try` blocks becomes a `match` with one `return Err(..)` and nothing happens to the other
`?`s and the `return`s; otherwise no `return` and no `?` is rewritten.  (C04 gives the exact form
of the `match`.)  Partial with respect to C11: the `?`s in `try` blocks are counted although they
are not rewritten, see `C11_try_block_fails`. -/
theorem C11_mode_partial (env : Env) (fuel h : Nat) (toks : List Tok) (traits : List Path)
    (marker : Option Ident) (ha : IsArgs toks traits marker) (ht : traits ≠ [])
    (name : String) (ty : Ty) (hty : IsResultImpl ty) (as asb : List Attr) (ss : List Node)
    (inp out : Node) (hin : inp = .mk (.iFn name (some ty)) as [.mk .block asb ss])
    (hs : shaped inp = true)
    (hrun : autoEnum env fuel h toks (.stmt inp) = .code out) :
    if 2 ≤ ourCount .try_ (marker.getD "marker") (exits false {} inp) then
      Aligned (Exit.TryFate (marker.getD "marker")) (exits false {} inp) (exits false {} out)
    else Aligned Exit.Kept (exits false {} inp) (exits false {} out) := by
  obtain ⟨cx, cx', h1, h2, h3, h4, h5, h6⟩ := root_cx ha hrun
  rcases h6 with ⟨n, h6, hr⟩ | ⟨n, h6, _⟩
  · cases h6
    subst hin
    have hsb : shaped (.mk .block asb ss) = true := by
      simp only [shaped, shapedL, Bool.and_true] at hs ⊢; exact hs
    obtain ⟨m1, m2, m3⟩ := result_mode (env := env) h5 h4 hty hsb
    rw [h2] at m1
    have hx := exits_iFn false {} name (some ty) as (.mk .block asb ss)
    rw [← hx] at m1
    rcases fn_flow false h4 (fun h => by cases h) hr {} at_root with ⟨g, hd⟩ | ⟨hd, g⟩
    · split
      · rename_i hc
        rw [if_pos hc] at m1
        exact absurd (h1.symm.trans (hd (by rw [m1]; simp)).1) ht
      · exact g
    · split
      · rename_i hc
        refine g.imp fun a b hab => ?_
        rw [if_pos hc] at m1
        unfold fate at hab
        rw [m1, m3, h2] at hab
        exact hab
      · rename_i hc
        rw [m1, if_neg hc] at hd
        exact absurd rfl hd
  · cases h6

/-- C10: the same when there are two or more. -/
theorem C10_desugar (env : Env) (fuel h : Nat) (toks : List Tok) (traits : List Path)
    (marker : Option Ident) (ha : IsArgs toks traits marker) (ht : traits ≠ [])
    (name : String) (ty : Ty) (hty : IsResultImpl ty) (as asb : List Attr) (ss : List Node)
    (inp out : Node) (hin : inp = .mk (.iFn name (some ty)) as [.mk .block asb ss])
    (hs : shaped inp = true) (h2 : 2 ≤ ourCount .try_ (marker.getD "marker") (exits false {} inp))
    (hrun : autoEnum env fuel h toks (.stmt inp) = .code out) :
    Aligned (Exit.TryFate (marker.getD "marker")) (exits false {} inp) (exits false {} out) := by
  have := C11_mode_partial env fuel h toks traits marker ha ht name ty hty as asb ss inp out hin hs hrun
  rwa [if_pos h2] at this

/-- A function with any other return type: no `return` and no `?` is rewritten. -/
theorem C08_other_types (env : Env) (fuel h : Nat) (toks : List Tok) (traits : List Path)
    (marker : Option Ident) (ha : IsArgs toks traits marker)
    (name : String) (ret : Option Ty) (h1 : ∀ bs tks, ret ≠ some (.mk (.implTrait bs) tks))
    (h2 : ∀ ty, ret = some ty → ¬IsResultImpl ty) (as asb : List Attr) (ss : List Node)
    (inp out : Node) (hin : inp = .mk (.iFn name ret) as [.mk .block asb ss])
    (hrun : autoEnum env fuel h toks (.stmt inp) = .code out) :
    Aligned Exit.Kept (exits false {} inp) (exits false {} out) := by
  obtain ⟨cx, cx', _, _, _, h4, h5, h6⟩ := root_cx ha hrun
  rcases h6 with ⟨n, h6, hr⟩ | ⟨n, h6, _⟩
  · cases h6
    subst hin
    rcases fn_flow false h4 (fun h => by cases h) hr {} at_root with ⟨g, _⟩ | ⟨hd, _⟩
    · exact g
    · refine absurd ?_ hd
      have hl : (cx.lastMode == VisitLastMode.never) = false := by rw [h5.lastMode]; rfl
      have hm : ∀ ty, ret = some ty → retMode cx ty (.mk .block asb ss) = .default := by
        intro ty hty
        unfold retMode
        rw [hl]
        simp only [Bool.false_eq_true, if_false]
        split
        · exact absurd hty (h1 _ _)
        · rename_i p t bs tks
          rw [if_neg, h5.mode]
          intro hc
          simp only [Bool.and_eq_true] at hc
          exact h2 _ hty ⟨p, _, _, _, (pathEq_result p).mp hc.1, rfl⟩
        · exact h5.mode
      unfold fnAnalysis
      split
      · exact h5.mode
      · dsimp only
        split <;> simp [Cx.collectImplTrait, hm _ rfl]
  · cases h6

theorem ctor_count {en : Ident} {m : String} {l l' : List Exit}
    (h : Aligned (Exit.RetFate en m) l l')
    (hp : ∀ a ∈ l, plainValue a.value = true ∧ ctorOf en a.value = false) :
    (l'.filter fun b => ctorOf en b.value).length = ourCount .ret m l := by
  induction h with
  | nil => rfl
  | @cons a b l l' hab _ ih =>
    have ih := ih fun a ha => hp a (by simp [ha])
    have e : ourCount .ret m (a :: l) = ourCount .ret m [a] + ourCount .ret m l :=
      ourCount_append .ret m [a] l
    rw [e, ← ih, ourCount_one]
    unfold Exit.RetFate at hab
    by_cases hc : a.kind = .ret ∧ a.ours m = true
    · rw [if_pos hc] at hab
      obtain ⟨_, i, hv⟩ := hab
      rw [if_pos hc, List.filter_cons, if_pos]
      · simp only [List.length_cons]; omega
      · rw [hv]; simp [ctorOf, variantPath]
    · rw [if_neg hc] at hab
      obtain ⟨h1, h2⟩ := hp a (by simp)
      have hb : ctorOf en b.value = false := by
        have h3 := hab.2
        cases hv : a.value with
        | none =>
          rw [hv] at h3
          cases hw : b.value with
          | none => rfl
          | some => rw [hw] at h3; exact h3.elim
        | some v =>
          rw [hv] at h3 h1 h2
          cases hw : b.value with
          | none => rfl
          | some v' =>
            rw [hw] at h3
            rcases h3 with h3 | ⟨p, h3⟩ | h3
            · rw [h3]; exact h2
            · subst h3; cases h1
            · subst h3; cases h1
      rw [if_neg hc, List.filter_cons, if_neg (by simp [hb])]
      omega

/-- C29: the number of `return`s counted in the body of a function, which decides whether inferred
traits lead to an enum at all, is the number of `return`s that get a constructor, when no `return`
or `?` has a macro call, an expression with an inner attribute or a constructor of that enum for
its value. -/
theorem C29_count (env : Env) (fuel h : Nat) (toks : List Tok) (traits : List Path)
    (marker : Option Ident) (ha : IsArgs toks traits marker) (ht : traits ≠ [])
    (name : String) (bs : List (Option Path)) (tks : List Ty) (as asb : List Attr) (ss : List Node)
    (inp out : Node) (hin : inp = .mk (.iFn name (some (.mk (.implTrait bs) tks))) as [.mk .block asb ss])
    (hs : shaped inp = true)
    (hp : ∀ a ∈ exits false {} inp,
      plainValue a.value = true ∧ ctorOf ("__Enum" ++ toString h) a.value = false)
    (hrun : autoEnum env fuel h toks (.stmt inp) = .code out)
    (cx : Cx) (hcx : Cx.new h toks true [] [] = .ok cx) :
    (visitFn cx (.mk .block asb ss)).return_ =
      ((exits false {} out).filter fun b => ctorOf ("__Enum" ++ toString h) b.value).length := by
  have hfate := C08_return env fuel h toks traits marker ha ht name bs tks as asb ss inp out hin hrun
  rw [ctor_count hfate hp]
  obtain ⟨m, p1, p2, p3, _, p4, _⟩ := new_args hcx
  rw [(parseArgs_iff _ _ _).mpr ha] at p1
  cases p1
  subst hin
  have hsb : shaped (.mk .block asb ss) = true := by
    simp only [shaped, shapedL, Bool.and_true] at hs ⊢; exact hs
  have hm : cx.marker = marker.getD "marker" := p3
  rw [exits_iFn, ← hm]
  exact (fnCount_exits p4 false (.mk .block asb ss) {} hsb rfl rfl).1

/-! ## Witnesses -/

namespace Ex

def ret (e : Node) : Node := .mk .eReturn [] [e]
def qm (e : Node) : Node := .mk .eTry [] [e]
def closure (b : Node) : Node := .mk (.eClosure "") [] [b]
def letS (x : String) (e : Node) : Node := .mk (.sLocal (.plain x)) [] [e]
def resImpl : Ty := .mk (.path false (.ofIdents ["Result"]) (some false))
  [.mk .argType [.mk (.path false (.ofIdents ["T"]) none) []], .mk .argType [implIter]]

/-- ```
fn f() -> impl Iterator {
    if a { return 1; }
    let g = || { return 2; };
    if b { #[never] return 3; }
    if c { return marker!(4); }
    match x { 0 => 5, _ => return 6 }
}
``` -/
def retIn : Node := .mk (.iFn "f" (some implIter)) [] [.mk .block [] [
  semiS (.mk .eIf [] [var "a", .mk .block [] [semiS (ret (lit "1"))]]),
  letS "g" (closure (exprBlock [semiS (ret (lit "2"))])),
  semiS (.mk .eIf [] [var "b", .mk .block [] [semiS (.mk .eReturn [helper "never"] [lit "3"])]]),
  semiS (.mk .eIf [] [var "c", .mk .block [] [semiS (ret (marker (lit "4")))]]),
  tailS (.mk .eMatch [] [var "x", arm "0" (lit "5"), arm "_" (ret (lit "6"))])]]

/-- ```
fn f() -> Result<T, impl Iterator> { a?; try { b? }; || c?; return Ok(d?); }
``` -/
def tryIn : Node := .mk (.iFn "f" (some resImpl)) [] [.mk .block [] [
  semiS (qm (var "a")),
  semiS (.mk .eTryBlock [] [tailS (qm (var "b"))]),
  semiS (closure (qm (var "c"))),
  semiS (ret (call "Ok" [qm (var "d")]))]]

/-- ```
fn f() -> impl Iterator {
    let g = || { return 2; };
    match x { 0 => 5, _ => return 6 }
    return 7;
}
``` -/
def countRet : Node := .mk (.iFn "f" (some implIter)) [] [.mk .block [] [
  letS "g" (closure (exprBlock [semiS (ret (lit "2"))])),
  semiS (.mk .eMatch [] [var "x", arm "0" (lit "5"), arm "_" (ret (lit "6"))]),
  semiS (ret (lit "7"))]]

/-- `|| { a?; return 1; match x { 0 => 2, _ => 3 } }`. -/
def closureIn : Node := exprBlock [semiS (qm (var "a")), semiS (ret (lit "1")),
  tailS (.mk .eMatch [] [var "x", arm "0" (lit "2"), arm "_" (lit "3")])]

end Ex

theorem Ex.isArgs : IsArgs Ex.iterator [.ofIdents ["Iterator"]] none :=
  (parseArgs_iff _ _ _).mp (by rfl)

/-- The hypotheses of `C08_return` hold for a function with wrapped and excluded `return`s, and the
first one carries a constructor afterwards. -/
example : ∃ out, autoEnum Ex.env 20 5 Ex.iterator (.stmt Ex.retIn) = .code out ∧
    decide ((exits true {} Ex.retIn).map (·.value) =
      [some .other, some .other, some .other, some (.mac (.ofIdents ["marker"])), some .other] ∧
    (exits true {} out).map (·.value) =
      [some (.call (variantPath "__Enum5" "__Variant1")), some .other, some .other,
        some (.call (variantPath "__Enum5" "__Variant2")),
        some (.call (variantPath "__Enum5" "__Variant3"))]) = true :=
  Ex.of_check (by decide +kernel)

/-- The hypotheses of `C10_desugar` and `C09_inner_scopes_partial` hold. -/
example : IsResultImpl Ex.resImpl ∧ shaped Ex.tryIn = true ∧
    2 ≤ ourCount .try_ "marker" (exits false {} Ex.tryIn) ∧
    (∀ a ∈ allAttrs Ex.tryIn, named "auto_enum" a = false) ∧
    ∃ out, autoEnum Ex.env 20 5 Ex.iterator (.stmt Ex.tryIn) = .code out ∧
      decide ((exits true {} out).map (·.kind) = [.ret, .try_, .try_, .ret, .ret]) = true :=
  ⟨⟨_, _, _, _, by decide, rfl⟩, by decide, by decide, by decide, Ex.of_check (by decide +kernel)⟩

/-- The hypotheses of `C08_closure` and `C08_let_closure` hold. -/
example : shaped Ex.closureIn = true ∧
    (∃ out, autoEnum Ex.env 20 5 Ex.iterator (.expr (Ex.closure Ex.closureIn)) = .code out ∧
      decide ((exits true {} out).map (·.value) =
        [some .other, some (.call (variantPath "__Enum5" "__Variant2"))]) = true) ∧
    ∃ out, autoEnum Ex.env 20 5 Ex.iterator (.stmt (Ex.letS "f" (Ex.closure Ex.closureIn))) = .code out ∧
      decide ((exits true {} out).map (·.value) =
        [some .other, some (.call (variantPath "__Enum5" "__Variant2"))]) = true :=
  ⟨by decide, Ex.of_check (by decide +kernel), Ex.of_check (by decide +kernel)⟩

/-- The hypotheses of `C08_other_types` hold: `fn f() { match x { 0 => 1, _ => 2 } }`. -/
example : ∃ out, autoEnum Ex.env 20 5 Ex.iterator (.stmt (.mk (.iFn "f" none) [] [.mk .block []
    [semiS (Ex.ret (Ex.lit "0")),
      tailS (.mk .eMatch [] [Ex.var "x", Ex.arm "0" (Ex.lit "1"), Ex.arm "_" (Ex.lit "2")])]])) =
    .code out ∧ decide ((exits true {} out).map (·.value) = [some .other]) = true :=
  Ex.of_check (by decide +kernel)

/-- The hypotheses of `C08_return_inferred` hold with inferred traits. -/
example : IsArgs [] [] none ∧
    ∃ out, autoEnum Ex.taEnv 20 5 [] (.stmt Ex.retIn) = .code out ∧ decide (
      (exits false {} out).map (·.value) =
      [some (.call (variantPath "__Enum5" "__Variant1")), some .other,
        some (.call (variantPath "__Enum5" "__Variant2")),
        some (.call (variantPath "__Enum5" "__Variant3"))]) = true :=
  ⟨(parseArgs_iff _ _ _).mp (by rfl), Ex.of_check (by decide +kernel)⟩

/-- The hypotheses of `C29_count` hold for a function with two counted `return`s and one in a
closure. -/
example : shaped Ex.countRet = true ∧
    (∀ a ∈ exits false {} Ex.countRet, plainValue a.value = true ∧ ctorOf "__Enum5" a.value = false) ∧
    ∃ out, autoEnum Ex.env 20 5 Ex.iterator (.stmt Ex.countRet) = .code out ∧ decide (
      ((exits false {} out).filter fun b => ctorOf "__Enum5" b.value).length = 2) = true :=
  ⟨by decide, by decide, Ex.of_check (by decide +kernel)⟩

/-- `fn f() -> impl Iterator { let g = async { return 1; }; return 2; }` -/
def Ex.asyncIn : Node := .mk (.iFn "f" (some implIter)) [] [.mk .block [] [
  letS "g" (.mk .eAsync [] [semiS (ret (lit "1"))]), semiS (ret (lit "2"))]]

/-- C09 is false for `async` blocks: the `return` of an `async` block is given a constructor of the
function's enum, though it does not leave the function. -/
theorem C09_async_fails : ∃ out, autoEnum Ex.env 20 5 Ex.iterator (.stmt Ex.asyncIn) = .code out ∧
    decide ((exits true {} Ex.asyncIn).map (fun a => (a.loc.asyncBlock, a.value)) =
        [(true, some .other), (false, some .other)] ∧
      (exits true {} out).map (fun a => (a.loc.asyncBlock, a.value)) =
        [(true, some (.call (variantPath "__Enum5" "__Variant0"))),
          (false, some (.call (variantPath "__Enum5" "__Variant1")))]) = true :=
  Ex.of_check (by decide +kernel)

/-- ```
fn f() -> Result<T, impl Iterator> {
    a?;
    try { b? };
    Err(marker!(c))
}
```-/
def Ex.countIn : Node := .mk (.iFn "f" (some resImpl)) [] [.mk .block [] [
  semiS (qm (var "a")),
  semiS (.mk .eTryBlock [] [tailS (qm (var "b"))]),
  tailS (call "Err" [marker (var "c")])]]

/-- C11 is false with `try` blocks: only one `?` can be rewritten, but because the `?` of the `try`
block is counted too, it is. -/
theorem C11_try_block_fails :
    ((exits false {} Ex.countIn).filter (fun a => a.kind == .try_ && a.ours "marker" &&
      !a.loc.tryBlock)).length = 1 ∧
    ∃ out, autoEnum Ex.env 20 5 Ex.iterator (.stmt Ex.countIn) = .code out ∧
      decide ((exits false {} out).map (·.kind) = [.ret, .try_]) = true :=
  ⟨by decide +kernel, Ex.of_check (by decide +kernel)⟩

end AutoEnums
