import Verif.Spec.InPlace
import Verif.Props.C20
import Verif.Props.C16
import Verif.Lemmas.Break
import Verif.Lemmas.OutlineWhole

/-! # C68: an attribute without arguments expands the attributes in its input in place -/

namespace AutoEnums

open Spec Judg

section
variable {X X' : Expansion} {semi : Bool}

theorem InPlaceL_nil {ns : List Node} : InPlaceL X X' semi [] ns ↔ ns = [] := by rw [InPlaceL]

theorem InPlaceL_cons {n : Node} {ns ns' : List Node} : InPlaceL X X' semi (n :: ns) ns' ↔
    ∃ m ms, ns' = m :: ms ∧ InPlace X X' semi n m ∧ InPlaceL X X' semi ns ms := by rw [InPlaceL]

theorem InPlace_none {k : Kind} {as : List Attr} {ks : List Node} {n' : Node} (h : innerAttr k as = none) :
    InPlace X X' semi (.mk k as ks) n' ↔
      ∃ ks', (if hidesCode k then ks' = ks else InPlaceL X X' (endsIn k) ks ks') ∧ n' = .mk k as ks' := by
  rw [InPlace, h]

theorem InPlace_some {k : Kind} {as : List Attr} {ks : List Node} {n' : Node} {a : Attr} (h : innerAttr k as = some a) :
    InPlace X X' semi (.mk k as ks) n' ↔ ∃ toks ks', letArgs a.form = some toks ∧
        (if hidesCode k then ks' = ks else InPlaceL X X (endsIn k) ks ks') ∧
        X' toks semi (.mk k (dropFirst (named "auto_enum") as) ks') n' := by
  rw [InPlace, h]

end

theorem odd_grammatical {k : Kind} {as : List Attr} {ks : List Node} (hg : grammatical (.mk k as ks) = true) :
    oddStatement k ks = false := by
  unfold oddStatement
  split
  · have := (grammatical_mk hg rfl).1
    match ks, this with
    | [e], this => simpa [kidsOk] using this
  · rfl

theorem Outside_idle {X : Expansion} {J : Job} (hJ : J.branchesOnly) : ∀ (n : Node) (w : Where) (semi : Bool) (n' : Node),
    grammatical n = true → Outside X J w semi n n' → InPlace X X semi n n' := by
  intro n
  induction n using Node.ind with
  | h k as ks ih =>
    intro w semi n' hg h
    rcases Outside_mk.1 h with h | ⟨ks', vn, vn', h1, _, _, h2⟩
    · rw [odd_grammatical hg] at h; cases h
    · have hks : (if hidesCode k then ks' = ks else InPlaceL X X (endsIn k) ks ks') := by
        split at h1
        · rename_i hk; rw [if_pos hk]; exact h1
        · rename_i hk
          rw [if_neg hk]
          have hgk := (grammatical_mk hg (by simpa using hk)).2
          clear h hg h2
          revert h1
          generalize w.enter k = w1
          generalize endsIn k = s1
          intro h1
          induction ks generalizing ks' with
          | nil => exact InPlaceL_nil.2 (OutsideL_nil.1 h1)
          | cons c cs ihs =>
            obtain ⟨m, ms, rfl, g1, g2⟩ := OutsideL_cons.1 h1
            rw [grammaticalL, Bool.and_eq_true] at hgk
            exact InPlaceL_cons.2 ⟨m, ms, rfl, ih c (by simp) _ _ _ hgk.1 g1,
              ihs (fun d hd => ih d (by simp [hd])) ms hgk.2 g2⟩
      cases hi : innerAttr k as with
      | none =>
        rw [Via, hi] at h2
        simp only [viaFlow_none hJ, viaMarker_default hJ] at h2
        exact (InPlace_none hi).2 ⟨ks', hks, h2⟩
      | some a =>
        rw [Via, hi] at h2
        simp only [viaFlow_none hJ, viaMarker_default hJ] at h2
        obtain ⟨toks, out, h3, h4, rfl⟩ := h2
        exact (InPlace_some hi).2 ⟨toks, ks', h3, hks, h4⟩

theorem OutsideL_idle {X : Expansion} {J : Job} (hJ : J.branchesOnly) {w : Where} {semi : Bool} : ∀ (ns ns' : List Node),
    grammaticalL ns = true → OutsideL X J w semi ns ns' → InPlaceL X X semi ns ns'
  | [], _, _, h => InPlaceL_nil.2 (OutsideL_nil.1 h)
  | n :: ns, _, hg, h => by
    obtain ⟨m, ms, rfl, g1, g2⟩ := OutsideL_cons.1 h
    rw [grammaticalL, Bool.and_eq_true] at hg
    exact InPlaceL_cons.2 ⟨m, ms, rfl, Outside_idle hJ _ _ _ _ hg.1 g1, OutsideL_idle hJ _ _ hg.2 g2⟩

/-- What each judgement says about code that is not in a region, if the attribute has no arguments. -/
def Judg.Place (env : Env) : Judg → Prop
  | one vk _ cx n _ n' => vk = .dummy → grammatical n = true →
      InPlace (Expands env) (ExpandsApart env cx.markers) false n n'
  | many vk _ cx ns _ ns' => vk = .dummy → grammaticalL ns = true →
      InPlaceL (Expands env) (ExpandsApart env cx.markers) false ns ns'
  | expr vk _ semi cx n _ n' => vk = .dummy → n.kind.isExpr = true → grammatical n = true →
      InPlace (Expands env) (ExpandsApart env cx.markers) semi n n'
  | part vk _ cx n _ n' => vk = .dummy → ∃ ks, n' = n.rebuild ks ∧ (grammaticalL n.sub = true →
      InPlaceL (Expands env) (ExpandsApart env cx.markers) false n.sub ks)
  | _ => True

theorem InPlace_of_kids {X X' : Expansion} {semi : Bool} {k : Kind} {as : List Attr} {ks ks' : List Node}
    (hi : innerAttr k as = none) (hks : k.isOpaque = false → InPlaceL X X' (endsIn k) ks ks') :
    InPlace X X' semi (.mk k as ks) (.mk k as (if k.isOpaque then ks else ks')) := by
  refine (InPlace_none hi).2 ⟨_, ?_, rfl⟩
  rw [hidesCode_eq]
  cases h : k.isOpaque with
  | true => simp
  | false => simpa using hks h

theorem grammaticalL_sub {n : Node} (h : grammatical n = true) : grammaticalL n.sub = true := by
  obtain ⟨k, as, ks⟩ := n
  simp only [Node.sub]
  split
  · rfl
  · rename_i ho
    exact (grammatical_mk h (by rw [hidesCode_eq]; simpa using ho)).2

theorem idle_dummy (cx : Cx) : (jobIn .dummy cx).branchesOnly := ⟨rfl, rfl, rfl⟩

theorem Run.place {env : Env} {j : Judg} (h : Run env j) : j.Place env := by
  induction h with
  | nil => intro _ _; exact InPlaceL_nil.2 rfl
  | @cons vk sc cx n cx1 n' ns cx2 ns' h1 h2 ih1 ih2 =>
    intro hv hg
    have hs := Run.keeps h1
    rw [grammaticalL, Bool.and_eq_true] at hg
    have := ih2 hv hg.2
    rw [hs.markers] at this
    exact InPlaceL_cons.2 ⟨_, _, rfl, ih1 hv hg.1, this⟩
  | @plain cx vk sc n cx2 ks semi hc hc1 hn hr hrun _ hpost ih =>
    rintro rfl hk hg
    have hn' : n.anyAttr NAME = false := by
      cases h : n.anyAttr NAME with
      | false => rfl
      | true => obtain ⟨b, hb⟩ := hn h; rw [hb] at hk; cases hk
    obtain ⟨k, as, ks0⟩ := n
    have hek : endsIn k = false := by
      simp only [Node.kind] at hk; cases k <;> first | rfl | cases hk
    have hin : innerAttr k as = none := innerAttr_off (Node.findRemoveAttr_none hn')
    have e1 : pre .dummy (enter .dummy sc (.mk k as ks0)) cx (.mk k as ks0) = (cx, .mk k as ks0) := by
      simp [pre, seen, hn']
    rw [e1] at ih
    simp only [e1, post]
    rw [rebuild_eq]
    refine InPlace_of_kids hin fun ho => ?_
    rw [hek]
    have := ih rfl (grammaticalL_sub hg)
    rwa [sub_mk ho] at this
  | @child cx vk sc n attr n1 toks cx1 ch cx2 ks semi ch' n3 hc hc1 hn hf ha hm _ _ hr1 _ _ hch hj hp hran ih1 _ =>
    rintro rfl hk hg
    obtain ⟨k, as, ks0⟩ := n
    simp only [Node.kind] at hk
    have hs := pre_same .dummy (enter .dummy sc (.mk k as ks0)) cx (.mk k as ks0)
    obtain ⟨hj1, hm1⟩ := makeChild_job (vk := .dummy) hm
    have hjp := jobIn_same (vk := .dummy) hs
    have hw : ∀ sc w, Placed .dummy sc w := by intro sc w h; cases h
    have hks := Run.out hr1 hm1 (by simp) (({} : Where).enter k) (hw _ _)
    rw [hj1, hjp] at hks
    have hj2 : jobIn .dummy (cx2.joinChild ch') = jobIn .dummy cx := by
      rw [← hjp, ← hj1, ← jobIn_same (Run.keeps hr1)]
      unfold Cx.joinChild Cx.assert Cx.panic jobIn
      dsimp only
      split <;> rfl
    obtain ⟨hin, hke, ks', vn, vn', g1, g2, g3, g4, g5⟩ := child_region (ms := []) hk hn hf hp
      (fun h => by cases h) hj2 (hw _ _) hks
    have hnew := makeChild_new hc1.1 hm
    have hx := expandsApart hke hnew hran hch
    rw [hs.markers] at hx
    rw [flow_idle] at g4
    rw [marker_idle] at g5
    rw [g4] at hx
    refine (InPlace_some hin).2 ⟨toks, ks', by rw [ha]; rfl, ?_, by rw [g5]; exact hx⟩
    split
    · rename_i hh; rw [if_pos hh] at g1; exact g1
    · rename_i hh
      rw [if_neg hh] at g1
      exact OutsideL_idle (idle_dummy cx) _ _ (grammatical_mk hg (by simpa using hh)).2 g1
  | @part cx vk sc n cx2 ks _ _ _ _ _ ih =>
    rintro rfl
    exact ⟨ks, rfl, ih rfl⟩
  | oneExpr hk _ ih => intro hv hg; exact ih hv hk hg
  | @oneStmt vk sc semi cx e cx' e' as _ ih =>
    intro hv hg
    have ho := odd_grammatical hg
    have he : e.kind.isExpr = true := by
      simpa [oddStatement, isExprNode_eq'] using ho
    have hge := (grammatical_mk hg rfl).2
    rw [grammaticalL, Bool.and_eq_true] at hge
    exact (InPlace_none rfl).2 ⟨[e'], InPlaceL_cons.2 ⟨_, _, rfl, ih hv he hge.1, InPlaceL_nil.2 rfl⟩, rfl⟩
  | @oneArm vk sc cx n cx' n' p hk _ ih =>
    intro hv hg
    obtain ⟨k, as, ks0⟩ := n
    cases hk
    obtain ⟨ks, rfl, h⟩ := ih hv
    exact InPlace_of_kids rfl fun ho => h (grammaticalL_sub hg)
  | @oneLocal vk sc cx n cx' n' p hk hn _ ih =>
    intro hv hg
    obtain ⟨k, as, ks0⟩ := n
    cases hk
    obtain ⟨ks, rfl, h⟩ := ih hv
    exact InPlace_of_kids (innerAttr_off (Node.findRemoveAttr_none hn)) fun ho => h (grammaticalL_sub hg)
  | @oneLocalChild cx attr n1 toks n cx1 ch vk sc cx2 n2 ch' n3 p hk hn hc hf ht hm _ _ hr1 _ _ hch hj hran ih1 _ =>
    rintro rfl hg
    obtain ⟨hj1, hm1⟩ := makeChild_job (vk := .dummy) hm
    have hjs : jobIn .dummy (seen cx n) = jobIn .dummy cx := by unfold seen; split <;> rfl
    have hms : (seen cx n).markers = cx.markers := by unfold seen; split <;> rfl
    have hes : (seen cx n).errs = [] := by unfold seen; split <;> exact hc.1
    obtain ⟨ks, e2, hks⟩ := Run.out hr1 hm1 (by simp) {} (by intro h; cases h)
    rw [hj1, hjs] at hks
    have hnew := makeChild_new hes hm
    have hk2 : n2.kind = .sLocal p := by
      rw [e2, rebuild_kind, findRemove_without hf]; exact hk
    have hx := expandsApart_stmt (semi := false) hk2 hnew hran hch
    rw [hms] at hx
    obtain ⟨k, as, ks0⟩ := n
    cases hk
    have hid := findRemove_without hf
    subst hid
    subst e2
    have hin : innerAttr (.sLocal p) as = some attr := innerAttr_of_findRemove rfl hf
    refine (InPlace_some hin).2 ⟨toks, ks, by rw [letArgs_eq]; exact ht, ?_, hx⟩
    exact OutsideL_idle (idle_dummy cx) _ _ (grammatical_mk hg rfl).2 hks
  | @oneBlock vk sc cx cx' ks n h1 h2 h3 _ ih =>
    intro hv hg
    obtain ⟨k, as, ks0⟩ := n
    simp only [Node.kind] at h1 h2
    have hi : innerAttr k as = none := by
      apply innerAttr_off (ks := ks0)
      apply Node.findRemoveAttr_none (n := .mk k as ks0)
      cases k <;> first
        | (simp [Kind.isExpr] at h1; done) | (simp [Kind.isStmt] at h2; done) | exact absurd rfl (h3 _) | rfl
    have he : endsIn k = false := by cases k <;> first | rfl | cases h2
    rw [rebuild_eq]
    refine InPlace_of_kids hi fun ho => ?_
    rw [he]
    have := ih hv (grammaticalL_sub hg)
    rwa [sub_mk ho] at this
  | @oneInert n cx vk sc h1 h2 h3 _ =>
    intro hv hg
    have ho : oddStatement n.kind n.kids = false := by obtain ⟨k, as, ks⟩ := n; exact odd_grammatical hg
    obtain ⟨k, as, ks0⟩ := n
    simp only [Node.kind, Node.kids] at h1 h2 ho
    cases k <;> first
      | (simp [Kind.isStmt] at h1; done) | exact absurd rfl (h2 _) | skip
    · exfalso
      match ks0, ho with
      | [], h => simp [oddStatement] at h
      | [e], _ => exact h3 _ _ _ rfl
      | _ :: _ :: _, h => simp [oddStatement] at h
    all_goals exact (InPlace_none rfl).2 ⟨ks0, by simp [hidesCode], rfl⟩
  | _ => trivial

/-- What becomes of the input of the macro. -/
def Spec.InputInPlace (X X' : Expansion) (out : Node) : Input → Prop
  | .expr e => InPlace X X' false e out
  | .stmt s => ∃ ks', InPlaceL X X' false s.kids ks' ∧ out = .mk s.kind s.rawAttrs ks'
  | .invalid => False

theorem place_expr {env : Env} {cx cx' : Cx} {semi : Bool} {e e' : Node} (ha : cx.args = []) (ht : cx.traits = [])
    (hg : grammatical e = true) (h : Run env (onExpr semi cx e cx' e')) :
    InPlace (Expands env) (ExpandsApart env cx.markers) false e e' := by
  cases h with
  | exprDummy _ h => cases semi <;> exact Run.place h rfl hg
  | exprBuild hd _ => cases semi <;> simp [Cx.isDummy, ha, ht] at hd

/-- C68: with no trait among the arguments and no trait inferred from a type, the macro puts in the place of
every annotated expression and `let` in its input what the macro makes of it with the arguments of that inner
attribute, from the inside to the outside, and changes nothing else.  What an outermost inner attribute does
is told if it neither calls nor declares the marker of the attribute without arguments (`ExpandsApart`). -/
theorem C68 (env : Env) (fuel h : Nat) (toks : List Tok) (input : Input) (n out : Node) (m : Option String)
    (hargs : IsArgs toks [] m) (hin : Spec.target input = some n)
    (hinf : inferredFor env.typeAnalysis [] n = []) (hg : grammatical n = true)
    (hrun : autoEnum env fuel h toks input = .code out) :
    InputInPlace (Expands env) (ExpandsApart env [m.getD "marker"]) out input := by
  obtain ⟨cx, cx', hnew, _, _, h1⟩ := code_run hrun
  have hf := new_fresh hnew
  obtain ⟨m, p1, p2, p3, p4, p5, _⟩ := new_args hnew
  rw [(parseArgs_iff _ _ _).mpr hargs] at p1
  injection p1 with p1
  injection p1 with ha hm
  subst hm
  have ha : cx.args = [] := ha.symm
  have hm : cx.markers = [m.getD "marker"] := by rw [p4, p3]; rfl
  have ht := hf.traits
  rcases h1 with ⟨s, rfl, hr⟩ | ⟨e, rfl, hr⟩
  · unfold Spec.target at hin
    split at hin
    · rename_i heq; cases heq
    · rename_i heq
      cases heq
      cases hin
      have hge := (grammatical_mk hg rfl).2
      rw [grammaticalL, Bool.and_eq_true] at hge
      cases hr with
      | stmtExpr hr =>
        have := place_expr ha ht hge.1 hr
        rw [hm] at this
        exact ⟨_, InPlaceL_cons.2 ⟨_, _, rfl, this, InPlaceL_nil.2 rfl⟩, rfl⟩
      | stmtInert _ _ h3 => exact absurd rfl (h3 _ _ _)
    · rename_i p as ks heq
      cases heq
      cases hin
      obtain ⟨l1, l2, _⟩ := localAnalysis_traits (env := env) hf p as ks
      rw [ha] at l1 l2
      have hrt : retype env.typeAnalysis [] (.mk (.sLocal p) as ks) = .mk (.sLocal p) as ks := by
        unfold retype
        split
        · rename_i heq
          cases heq
          rw [if_neg]
          rintro ⟨h1, h2⟩
          exact h2 (by simpa [inferredFor, annotationOf, h1] using hinf)
        · rfl
      rw [hrt] at l2
      rw [hinf] at l1
      injection l2 with l2 _ _
      injection l2 with l2
      cases hr with
      | stmtLocalDummy hl hd hr =>
        have hk := localAnalysis_kept hl
        rw [hl] at l2
        cases l2
        have := Run.place hr rfl (grammatical_mk hg rfl).2
        rw [hk.markers, hm] at this
        exact ⟨_, this, rfl⟩
      | stmtLocal hl hd _ =>
        have hk := localAnalysis_kept hl
        rw [hl] at l1
        exact absurd l1 (by simpa [Cx.isDummy, hk.args, ha] using hd)
      | stmtInert _ h2 _ _ => exact absurd rfl (h2 _)
    · rename_i name ret as asb ss heq
      cases heq
      cases hin
      obtain ⟨l1, _⟩ := fnAnalysis_traits (env := env) hf name ret as [.mk .block asb ss] (.mk .block asb ss)
      rw [ha, hinf] at l1
      have hd : (fnAnalysis env cx ret (.mk .block asb ss)).isDummy = true := by
        simp [Cx.isDummy, (fnAnalysis_kept (env := env) (cx := cx) (ret := ret) rfl).args, ha, l1]
      cases hr with
      | stmtFnDummy hl _ hr =>
        have hk := fnAnalysis_kept hl
        have := Run.place hr rfl (grammatical_mk hg rfl).2
        rw [hk.markers, hm] at this
        exact ⟨_, this, rfl⟩
      | stmtFnExit hl h2 => rw [← hl, hd] at h2; cases h2
      | stmtFn hl h2 => rw [← hl, hd] at h2; cases h2
      | stmtInert _ _ _ h4 => exact absurd rfl (h4 _ _ _ _ _)
    · cases hin
  · cases hin
    have := place_expr ha ht hg hr
    rw [hm] at this
    exact this

/-! ## Without custom markers -/

/-- The macro neither calls nor declares more markers than there were. -/
theorem Expands_apart {env : Env} {ms : List String} {o : String} (hce : callsNone ms o (.ofIdents ["compile_error"]))
    {toks : List Tok} {semi : Bool} {n n' : Node} (h : Expands env toks semi n n') (hn : Apart ms o n) :
    Apart ms o n' := by
  obtain ⟨f, h0, h⟩ := h
  have key : ∀ (input : Input) (x out : Node), (input = .expr x ∨ input = .stmt x) → Apart ms o x →
      autoEnum env f h0 toks input = .code out → Apart ms o out := by
    intro input x out hi hx hrun
    obtain ⟨cx, cx', h1, h2, _, _⟩ := autoEnum_code hrun
    have hs : Sim0 cx.markers cx.markers cx cx := ⟨cx.root, cx.markers, rfl, .inr ⟨rfl, rfl⟩, .inl rfl⟩
    rcases hi with rfl | rfl
    · simp only [expandInput, Option.some.injEq] at h2
      have := (expandParentExpr_sim (env := env) (visit_sim hce env f) (.inl rfl) hs hx false).apart
      rwa [h2] at this
    · simp only [expandInput, Option.some.injEq] at h2
      have := (expandParentStmt_sim (env := env) (visit_sim hce env f) (.inl rfl) hs hx).apart
      rwa [h2] at this
  have hstmt : ∀ semi x, Apart ms o x ↔ Apart ms o (.mk (.sExpr semi) [] [x]) := by
    intro semi x
    rw [apart_mk]
    simp
  unfold asInput asOutput at h
  split at h
  · exact key _ _ _ (.inr rfl) hn h
  · cases semi with
    | false => exact key _ _ _ (.inl rfl) hn h
    | true => exact (hstmt true n').2 (key _ _ _ (.inr rfl) ((hstmt true n).1 hn) h)

theorem InPlace_apart {env : Env} {ms : List String} {o : String} (hce : callsNone ms o (.ofIdents ["compile_error"])) :
    ∀ (n : Node) (semi : Bool) (n' : Node), InPlace (Expands env) (Expands env) semi n n' → Apart ms o n → Apart ms o n' := by
  intro n
  induction n using Node.ind with
  | h k as ks ih =>
    intro semi n' hp hn
    have hkids : ∀ ks', (if hidesCode k then ks' = ks else InPlaceL (Expands env) (Expands env) (endsIn k) ks ks') →
        ∀ c ∈ ks', Apart ms o c := by
      intro ks' h
      have hk : ∀ c ∈ ks, Apart ms o c := fun c hc => hn.kid hc
      split at h
      · subst h; exact hk
      · clear hn hp
        revert h
        generalize endsIn k = s1
        intro h
        induction ks generalizing ks' with
        | nil => rw [InPlaceL_nil] at h; subst h; simp
        | cons c cs ihs =>
          obtain ⟨m, ms', rfl, g1, g2⟩ := InPlaceL_cons.1 h
          intro d hd
          rcases List.mem_cons.1 hd with rfl | hd
          · exact ih c (by simp) _ _ g1 (hk c (by simp))
          · exact ihs (fun d hd => ih d (by simp [hd])) _ (fun c hc => hk c (by simp [hc])) g2 d hd
    cases hi : innerAttr k as with
    | none =>
      obtain ⟨ks', h1, rfl⟩ := (InPlace_none hi).1 hp
      exact hn.kids (hkids _ h1)
    | some a =>
      obtain ⟨toks, ks', _, h1, h2⟩ := (InPlace_some hi).1 hp
      refine Expands_apart hce h2 ?_
      exact (hn.kids (hkids _ h1)).attrs (fun a ha => dropFirst_mem ha)

/-- No inner attribute has a custom marker. -/
def Spec.noCustom (n : Node) : Prop :=
  ∀ a ∈ allAttrs n, named "auto_enum" a = true → ∀ x, ¬ Declares a x

theorem calls_marker (p : Path) : callsNone ["marker"] "marker" p := by
  intro m hm _
  simpa using hm

theorem noCustom_kids {k : Kind} {as : List Attr} {ks : List Node} (h : noCustom (.mk k as ks)) {c : Node} (hc : c ∈ ks) :
    noCustom c := by
  intro a ha
  refine h a ?_
  rw [allAttrs_mk, List.mem_append]
  exact .inr (mem_attrsL hc ha)

theorem noCustom_apart : ∀ (n : Node), noCustom n → Apart ["marker"] "marker" n := by
  intro n
  induction n using Node.ind with
  | h k as ks ih =>
    intro h
    refine apart_mk.2 ⟨fun p t _ => calls_marker p, fun a ha hn m _ => h a ?_ hn m, fun c hc => ih c hc (noCustom_kids h hc)⟩
    rw [allAttrs_mk, List.mem_append]
    exact .inl ha

theorem InPlace_alone {env : Env} : ∀ (n : Node) (semi : Bool) (n' : Node), noCustom n →
    InPlace (Expands env) (ExpandsApart env ["marker"]) semi n n' → InPlace (Expands env) (Expands env) semi n n' := by
  intro n
  induction n using Node.ind with
  | h k as ks ih =>
    intro semi n' hn hp
    cases hi : innerAttr k as with
    | none =>
      obtain ⟨ks', h1, rfl⟩ := (InPlace_none hi).1 hp
      refine (InPlace_none hi).2 ⟨ks', ?_, rfl⟩
      split
      · rename_i hk; rwa [if_pos hk] at h1
      · rename_i hk
        rw [if_neg hk] at h1
        have hc : ∀ c ∈ ks, noCustom c := fun c hc => noCustom_kids hn hc
        clear hp hn
        revert h1
        generalize endsIn k = s1
        intro h1
        induction ks generalizing ks' with
        | nil => exact InPlaceL_nil.2 (InPlaceL_nil.1 h1)
        | cons c cs ihs =>
          obtain ⟨m, ms', rfl, g1, g2⟩ := InPlaceL_cons.1 h1
          exact InPlaceL_cons.2 ⟨m, ms', rfl, ih c (by simp) _ _ (hc c (by simp)) g1,
            ihs (fun d hd => ih d (by simp [hd])) _ (fun c h => hc c (by simp [h])) g2⟩
    | some a =>
      obtain ⟨toks, ks', h1, h2, h3⟩ := (InPlace_some hi).1 hp
      refine (InPlace_some hi).2 ⟨toks, ks', h1, h2, ?_⟩
      have ha : a ∈ as ∧ named "auto_enum" a = true := by
        unfold innerAttr at hi
        split at hi
        · exact ⟨List.mem_of_find?_eq_some hi, List.find?_some hi⟩
        · cases hi
      have hd := hn a (by rw [allAttrs_mk, List.mem_append]; exact .inl ha.1) ha.2
      have hap : Apart ["marker"] "marker" (.mk k (dropFirst (named "auto_enum") as) ks') := by
        have h4 := noCustom_apart _ hn
        have h5 : InPlace (Expands env) (Expands env) false (.mk k [] ks) (.mk k [] ks') :=
          (InPlace_none (innerAttr_bare k)).2 ⟨ks', h2, rfl⟩
        have h6 := InPlace_apart (calls_marker _) _ _ _ h5 (h4.attrs (by simp))
        refine apart_mk.2 ⟨fun p t _ => calls_marker p, fun b hb => (apart_mk.1 h4).2.1 b (dropFirst_mem hb),
          (apart_mk.1 h6).2.2⟩
      obtain ⟨traits, mk, hargs, h3⟩ := h3
      have hmk : mk = none := by
        cases mk with
        | none => rfl
        | some x =>
          exfalso
          cases hf : a.form with
          | path =>
            rw [hf] at h1
            cases h1
            have h5 := (parseArgs_iff _ _ _).mpr hargs
            cases h5
          | list t =>
            rw [hf] at h1
            cases h1
            exact hd x ⟨_, _, hf, hargs⟩
          | nameValue => rw [hf] at h1; cases h1
      subst hmk
      exact h3 (calls_marker _) hap

theorem InPlaceL_alone {env : Env} {semi : Bool} : ∀ (ns ns' : List Node), (∀ c ∈ ns, noCustom c) →
    InPlaceL (Expands env) (ExpandsApart env ["marker"]) semi ns ns' → InPlaceL (Expands env) (Expands env) semi ns ns'
  | [], _, _, h => InPlaceL_nil.2 (InPlaceL_nil.1 h)
  | n :: ns, _, hn, h => by
    obtain ⟨m, ms, rfl, g1, g2⟩ := InPlaceL_cons.1 h
    exact InPlaceL_cons.2 ⟨m, ms, rfl, InPlace_alone _ _ _ (hn n (by simp)) g1,
      InPlaceL_alone _ _ (fun c hc => hn c (by simp [hc])) g2⟩

/-- C68 without custom markers: if no inner attribute has one, the macro without arguments does nothing but
put in the place of every annotated expression and `let` what the macro, with the arguments found there,
makes of it on its own. -/
theorem C68_alone (env : Env) (fuel h : Nat) (toks : List Tok) (input : Input) (n out : Node)
    (hargs : IsArgs toks [] none) (hin : Spec.target input = some n)
    (hinf : inferredFor env.typeAnalysis [] n = []) (hg : grammatical n = true) (hc : noCustom n)
    (hrun : autoEnum env fuel h toks input = .code out) :
    InputInPlace (Expands env) (Expands env) out input := by
  have := C68 env fuel h toks input n out none hargs hin hinf hg hrun
  cases input with
  | expr e =>
    cases hin
    exact InPlace_alone _ _ _ hc this
  | stmt s =>
    have hs : s = n := by
      unfold Spec.target at hin
      split at hin <;> first
        | (rename_i heq; cases heq; done) | (rename_i heq; cases heq; cases hin; rfl) | (cases hin; done)
    subst hs
    obtain ⟨ks', h1, h2⟩ := this
    refine ⟨ks', InPlaceL_alone _ _ ?_ h1, h2⟩
    obtain ⟨k, as, ks⟩ := s
    exact fun c hk => noCustom_kids hc hk
  | invalid => exact this

/-! ## Cases that meet the hypotheses -/

/-- ```
fn f() -> impl Iterator {
    #[auto_enum(Iterator)] let x = match a { 0 => 1, _ => #[auto_enum(Debug)] if c { 2 } else { 3 } };
    x
}
``` -/
def Ex.idleFn : Node := .mk (.iFn "f" (some Ex.implIter)) [] [.mk .block []
  [.mk (.sLocal (.plain "x")) [⟨.ofIdents [NAME], .list Ex.iterator⟩] [.mk .eMatch [] [Ex.var "a",
     Ex.arm "0" (Ex.lit "1"), Ex.arm "_" (.mk .eIf [⟨.ofIdents [NAME], .list [.ident "Debug"]⟩] [Ex.var "c",
       .mk .block [] [tailS (Ex.lit "2")], exprBlock [tailS (Ex.lit "3")]])]],
   tailS (Ex.var "x")]]

theorem noCustom_of {n : Node} (h : (allAttrs n).all (fun a => !named "auto_enum" a || match a.form with
    | .list toks => match parseArgs toks with
      | .ok r => r.marker.isNone
      | .error _ => true
    | _ => true) = true) : noCustom n := by
  rintro a ha hn x ⟨toks, traits, hf, hargs⟩
  have := List.all_eq_true.1 h a ha
  rw [hn, hf] at this
  simp only [Bool.not_true, Bool.false_or, (parseArgs_iff _ _ _).mpr hargs] at this
  cases this

/-- The hypotheses are met.  First the `if` is expanded, and then the `let`, whose second arm is what has
become of the `if`: there are two enums, each with two variants. -/
example : ∃ out, autoEnum Ex.env 40 5 [] (.stmt Ex.idleFn) = .code out ∧ (enums out).length = 2 ∧
    InputInPlace (Expands Ex.env) (Expands Ex.env) out (.stmt Ex.idleFn) := by
  obtain ⟨out, h1, h2⟩ := Ex.of_check (o := autoEnum Ex.env 40 5 [] (.stmt Ex.idleFn))
    (p := fun out => (enums out).length == 2) (by decide +kernel)
  exact ⟨out, h1, by simpa using h2, C68_alone _ _ _ _ _ _ _ ((parseArgs_iff _ _ _).mp rfl) rfl rfl
    (by decide +kernel) (noCustom_of (by decide +kernel)) h1⟩

/-- With a custom marker, on an expression: `{ let y = #[auto_enum(Iterator, marker = b)] match a { 0 => 1, _ => 2 }; y }`. -/
def Ex.idleExpr : Node := exprBlock
  [.mk (.sLocal (.plain "y")) [] [.mk .eMatch
     [⟨.ofIdents [NAME], .list [.ident "Iterator", .comma, .ident "marker", .eq, .ident "b"]⟩]
     [Ex.var "a", Ex.arm "0" (Ex.lit "1"), Ex.arm "_" (Ex.lit "2")]], tailS (Ex.var "y")]

example : ∃ out, autoEnum Ex.env 40 5 [] (.expr Ex.idleExpr) = .code out ∧ (enums out).length = 1 ∧
    InputInPlace (Expands Ex.env) (ExpandsApart Ex.env ["marker"]) out (.expr Ex.idleExpr) := by
  obtain ⟨out, h1, h2⟩ := Ex.of_check (o := autoEnum Ex.env 40 5 [] (.expr Ex.idleExpr))
    (p := fun out => (enums out).length == 1) (by decide +kernel)
  exact ⟨out, h1, by simpa using h2, C68 _ _ _ _ _ _ _ none ((parseArgs_iff _ _ _).mp rfl) rfl rfl
    (by decide +kernel) h1⟩

end AutoEnums
