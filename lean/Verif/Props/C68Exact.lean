import Verif.Spec.Composed
import Verif.Props.C68
import Verif.Lemmas.Mono

/-! # C68, exactly: the macro without arguments is the composition of the inner attributes -/

namespace AutoEnums

open Spec Judg

section
variable {env : Env} {semi : Bool}

theorem ComposedL_nil {ns : List Node} : ComposedL env semi [] ns ↔ ns = [] := by rw [ComposedL]

theorem ComposedL_cons {n : Node} {ns ns' : List Node} : ComposedL env semi (n :: ns) ns' ↔
    ∃ m ms, ns' = m :: ms ∧ Composed env semi n m ∧ ComposedL env semi ns ms := by rw [ComposedL]

theorem Composed_none {k : Kind} {as : List Attr} {ks : List Node} {n' : Node} (h : innerAttr k as = none) :
    Composed env semi (.mk k as ks) n' ↔
      ∃ ks', (if hidesCode k then ks' = ks else ComposedL env (endsIn k) ks ks') ∧ n' = .mk k as ks' := by
  rw [Composed, h]

theorem Composed_some {k : Kind} {as : List Attr} {ks : List Node} {n' : Node} {a : Attr} (h : innerAttr k as = some a) :
    Composed env semi (.mk k as ks) n' ↔ ∃ toks ks', innerArgs k a.form = some toks ∧
        (if hidesCode k then ks' = ks else ComposedL env (endsIn k) ks ks') ∧
        ExpandsAs env (env.hash (.mk k (dropFirst (named "auto_enum") as) ks)) toks semi
          (.mk k (dropFirst (named "auto_enum") as) ks') n' := by
  rw [Composed, h]

theorem innerArgs_let {k : Kind} {m : Meta} {toks : List Tok} (h : innerArgs k m = some toks) : letArgs m = some toks := by
  unfold innerArgs at h
  split at h
  · exact h
  · exact h
  · cases h

/-- The composition of the expansions, forgetting the names. -/
theorem Composed.inPlace : ∀ (n : Node) (semi : Bool) (n' : Node), Composed env semi n n' →
    InPlace (Expands env) (Expands env) semi n n' := by
  intro n
  induction n using Node.ind with
  | h k as ks ih =>
    intro semi n' h
    have hkids : ∀ ks', (if hidesCode k then ks' = ks else ComposedL env (endsIn k) ks ks') →
        (if hidesCode k then ks' = ks else InPlaceL (Expands env) (Expands env) (endsIn k) ks ks') := by
      intro ks' h1
      split
      · rename_i hk; rwa [if_pos hk] at h1
      · rename_i hk
        rw [if_neg hk] at h1
        clear h
        revert h1
        generalize endsIn k = s1
        intro h1
        induction ks generalizing ks' with
        | nil => exact InPlaceL_nil.2 (ComposedL_nil.1 h1)
        | cons c cs ihs =>
          obtain ⟨m, ms, rfl, g1, g2⟩ := ComposedL_cons.1 h1
          exact InPlaceL_cons.2 ⟨m, ms, rfl, ih c (by simp) _ _ g1, ihs (fun d hd => ih d (by simp [hd])) ms g2⟩
    cases hi : innerAttr k as with
    | none =>
      obtain ⟨ks', h1, h2⟩ := (Composed_none hi).1 h
      exact (InPlace_none hi).2 ⟨ks', hkids _ h1, h2⟩
    | some a =>
      obtain ⟨toks, ks', h1, h2, f, h3⟩ := (Composed_some hi).1 h
      exact (InPlace_some hi).2 ⟨toks, ks', innerArgs_let h1, hkids _ h2, f, _, h3⟩

end

/-- The markers of the enclosing attributes that a visit may find. -/
def Alone (ms : List String) : Prop := ms = [] ∨ ms = ["marker"]

theorem Alone.apart {ms : List String} (h : Alone ms) {o : String} (ho : o = "marker") {n : Node}
    (hn : Apart ["marker"] "marker" n) : Apart ms o n ∧ ∀ p, callsNone ms o p := by
  subst ho
  rcases h with rfl | rfl
  · exact ⟨apart_none _ _, fun p m hm => by simp at hm⟩
  · exact ⟨hn, calls_marker⟩

theorem noCustom_attr {k : Kind} {as : List Attr} {ks : List Node} {a : Attr} (hn : noCustom (.mk k as ks))
    (hi : innerAttr k as = some a) {toks : List Tok} (ht : letArgs a.form = some toks) {traits : List Path}
    {mk : Option Ident} (hargs : parseArgs toks = .ok ⟨traits, mk⟩) : mk = none := by
  have ha : a ∈ as ∧ named "auto_enum" a = true := by
    unfold innerAttr at hi
    split at hi
    · exact ⟨List.mem_of_find?_eq_some hi, List.find?_some hi⟩
    · cases hi
  have hd := hn a (by rw [allAttrs_mk, List.mem_append]; exact .inl ha.1) ha.2
  cases mk with
  | none => rfl
  | some x =>
    exfalso
    cases hf : a.form with
    | path =>
      rw [hf] at ht
      cases ht
      cases hargs
    | list t =>
      rw [hf] at ht
      cases ht
      exact hd x ⟨_, _, hf, (parseArgs_iff _ _ _).mp hargs⟩
    | nameValue => rw [hf] at ht; cases ht

/-- The region of an attribute after the attributes in it have been expanded. -/
theorem region_apart {env : Env} {k : Kind} {as : List Attr} {ks ks' : List Node} (hn : noCustom (.mk k as ks))
    (h : if hidesCode k then ks' = ks else ComposedL env (endsIn k) ks ks') :
    Apart ["marker"] "marker" (.mk k (dropFirst (named "auto_enum") as) ks') := by
  have h4 := noCustom_apart _ hn
  have h5 : InPlace (Expands env) (Expands env) false (.mk k [] ks) (.mk k [] ks') :=
    Composed.inPlace _ _ _ ((Composed_none (innerAttr_bare k)).2 ⟨ks', h, rfl⟩)
  have h6 := InPlace_apart (calls_marker _) _ _ _ h5 (h4.attrs (by simp))
  exact apart_mk.2 ⟨fun p t _ => calls_marker p, fun b hb => (apart_mk.1 h4).2.1 b (dropFirst_mem hb),
    (apart_mk.1 h6).2.2⟩

theorem asInput_expr {semi : Bool} {n : Node} (hk : n.kind.isExpr = true) :
    asInput semi n = if semi then .stmt (.mk (.sExpr true) [] [n]) else .expr n := by
  unfold asInput
  split
  · rename_i h; rw [h] at hk; cases hk
  · rfl

theorem asOutput_expr {semi : Bool} {n n' : Node} (hk : n.kind.isExpr = true) :
    asOutput semi n n' = if semi then .code (.mk (.sExpr true) [] [n']) else .code n' := by
  unfold asOutput
  split
  · rename_i h; rw [h] at hk; cases hk
  · rfl

/-! ## What is done is the composition -/

/-- What each judgement says about code visited on behalf of an attribute without arguments. -/
def Judg.Composes (env : Env) : Judg → Prop
  | one vk _ cx n _ n' => vk = .dummy → Alone cx.markers → grammatical n = true → noCustom n →
      Composed env false n n'
  | many vk _ cx ns _ ns' => vk = .dummy → Alone cx.markers → grammaticalL ns = true → (∀ n ∈ ns, noCustom n) →
      ComposedL env false ns ns'
  | expr vk _ semi cx n _ n' => vk = .dummy → Alone cx.markers → n.kind.isExpr = true → grammatical n = true →
      noCustom n → Composed env semi n n'
  | part vk _ cx n _ n' => vk = .dummy → Alone cx.markers → ∃ ks, n' = n.rebuild ks ∧ (grammaticalL n.sub = true →
      (∀ c ∈ n.sub, noCustom c) → ComposedL env false n.sub ks)
  | _ => True

theorem Composed_of_kids {env : Env} {semi : Bool} {k : Kind} {as : List Attr} {ks ks' : List Node}
    (hi : innerAttr k as = none) (hks : k.isOpaque = false → ComposedL env (endsIn k) ks ks') :
    Composed env semi (.mk k as ks) (.mk k as (if k.isOpaque then ks else ks')) := by
  refine (Composed_none hi).2 ⟨_, ?_, rfl⟩
  rw [hidesCode_eq]
  cases h : k.isOpaque with
  | true => simp
  | false => simpa using hks h

theorem noCustom_sub {n : Node} (h : noCustom n) : ∀ c ∈ n.sub, noCustom c := by
  obtain ⟨k, as, ks⟩ := n
  intro c hc
  simp only [Node.sub] at hc
  split at hc
  · cases hc
  · exact noCustom_kids h hc

theorem Run.composes {env : Env} {j : Judg} (h : Run env j) : j.Composes env := by
  induction h with
  | nil => intro _ _ _ _; exact ComposedL_nil.2 rfl
  | @cons vk sc cx n cx1 n' ns cx2 ns' h1 h2 ih1 ih2 =>
    intro hv hm hg hn
    have hs := Run.keeps h1
    rw [grammaticalL, Bool.and_eq_true] at hg
    exact ComposedL_cons.2 ⟨_, _, rfl, ih1 hv hm hg.1 (hn _ (by simp)),
      ih2 hv (by rw [hs.markers]; exact hm) hg.2 (fun c hc => hn c (by simp [hc]))⟩
  | @plain cx vk sc n cx2 ks semi hc hc1 hn hr hrun _ hpost ih =>
    rintro rfl hm hk hg hnc
    have hn' : n.anyAttr NAME = false := by
      cases h : n.anyAttr NAME with
      | false => rfl
      | true => obtain ⟨b, hb⟩ := hn h; rw [hb] at hk; cases hk
    obtain ⟨k, as, ks0⟩ := n
    have hek : endsIn k = false := by
      simp only [Node.kind] at hk; cases k <;> first | rfl | cases hk
    have hin : innerAttr k as = none := innerAttr_off (Node.findRemoveAttr_none hn')
    have e1 : pre .dummy (enter .dummy sc (.mk k as ks0)) cx (.mk k as ks0) = (cx, .mk k as ks0) := by
      simp [pre, seen, hn']
    rw [e1] at ih
    simp only [e1, post]
    rw [rebuild_eq]
    refine Composed_of_kids hin fun ho => ?_
    rw [hek]
    have := ih rfl hm (grammaticalL_sub hg) (noCustom_sub hnc)
    rwa [sub_mk ho] at this
  | @child cx vk sc n attr n1 toks cx1 ch cx2 ks semi ch' n3 hc hc1 hn hf ha hm _ _ hr1 _ _ hch hj hp hran ih1 _ =>
    rintro rfl hal hk hg hnc
    obtain ⟨k, as, ks0⟩ := n
    simp only [Node.kind] at hk
    have hs := pre_same .dummy (enter .dummy sc (.mk k as ks0)) cx (.mk k as ks0)
    obtain ⟨hj1, hm1⟩ := makeChild_job (vk := .dummy) hm
    have hek : endsIn k = false := by cases k <;> first | rfl | cases hk
    have hid := findRemove_without hf
    subst hid
    have e1 : (pre .dummy (enter .dummy sc (.mk k as ks0)) cx (.mk k as ks0)).2 = .mk k as ks0 := rfl
    rw [e1] at hf hm ih1 hran
    have hin : innerAttr k as = some attr := innerAttr_of_findRemove (isExpr_mayCarry (n := .mk k as ks0) hk hf) hf
    have hks : if hidesCode k then (if k.isOpaque then ks0 else ks) = ks0 else
        ComposedL env (endsIn k) ks0 (if k.isOpaque then ks0 else ks) := by
      rw [hidesCode_eq, hek]
      cases h : k.isOpaque with
      | true => simp
      | false =>
        simp only [Bool.false_eq_true, if_false]
        have hgk := (grammatical_mk hg (by rw [hidesCode_eq]; exact h)).2
        have := ih1 rfl (.inl hm1)
        simp only [without, Node.kind, Node.rawAttrs, Node.kids, sub_mk h] at this
        exact this hgk (fun c hc => noCustom_kids hnc hc)
    have hnew := makeChild_new hc1.1 hm
    rw [hs.markers] at hnew
    obtain ⟨mk, p1, _, p3, _⟩ := new_args hnew
    have hmk := noCustom_attr hnc hin (toks := toks) (by rw [ha]; rfl) p1
    subst hmk
    obtain ⟨hap, hce⟩ := hal.apart (o := ch.marker) p3 (region_apart hnc hks)
    obtain ⟨f, hran⟩ := hran
    have e2 : (without (.mk k as ks0)).rebuild ks = .mk k (dropFirst (named "auto_enum") as) (if k.isOpaque then ks0 else ks) := by
      simp only [without, Node.kind, Node.rawAttrs, Node.kids, rebuild_eq]
    rw [e2] at hran
    have := autoEnum_alone hnew (hce _) hap semi (env := env) (f := f) (by rw [hran]; exact hch)
    rw [hran] at this
    refine (Composed_some hin).2 ⟨toks, _, ?_, hks, f, ?_⟩
    · rw [ha]
      cases k <;> first | rfl | cases hk
    · have hk' : (Node.mk k (dropFirst (named "auto_enum") as) (if k.isOpaque then ks0 else ks)).kind.isExpr = true := hk
      rw [asInput_expr hk', asOutput_expr hk']
      cases semi with
      | false => exact this.1 rfl
      | true => exact this.2 [] (by simp)
  | @part cx vk sc n cx2 ks _ _ _ _ _ ih =>
    rintro rfl hm
    exact ⟨ks, rfl, ih rfl hm⟩
  | oneExpr hk _ ih => intro hv hm hg hn; exact ih hv hm hk hg hn
  | @oneStmt vk sc semi cx e cx' e' as _ ih =>
    intro hv hm hg hn
    have ho := odd_grammatical hg
    have he : e.kind.isExpr = true := by
      simpa [oddStatement, isExprNode_eq'] using ho
    have hge := (grammatical_mk hg rfl).2
    rw [grammaticalL, Bool.and_eq_true] at hge
    exact (Composed_none rfl).2 ⟨[e'], ComposedL_cons.2 ⟨_, _, rfl, ih hv hm he hge.1 (noCustom_kids hn (by simp)),
      ComposedL_nil.2 rfl⟩, rfl⟩
  | @oneArm vk sc cx n cx' n' p hk _ ih =>
    intro hv hm hg hn
    obtain ⟨k, as, ks0⟩ := n
    cases hk
    obtain ⟨ks, rfl, h⟩ := ih hv hm
    exact Composed_of_kids rfl fun ho => h (grammaticalL_sub hg) (noCustom_sub hn)
  | @oneLocal vk sc cx n cx' n' p hk hn _ ih =>
    intro hv hm hg hnc
    obtain ⟨k, as, ks0⟩ := n
    cases hk
    obtain ⟨ks, rfl, h⟩ := ih hv hm
    exact Composed_of_kids (innerAttr_off (Node.findRemoveAttr_none hn)) fun ho => h (grammaticalL_sub hg) (noCustom_sub hnc)
  | @oneLocalChild cx attr n1 toks n cx1 ch vk sc cx2 n2 ch' n3 p hk hn hc hf ht hm _ _ hr1 _ _ hch hj hran ih1 _ =>
    rintro rfl hal hg hnc
    obtain ⟨hj1, hm1⟩ := makeChild_job (vk := .dummy) hm
    have hms : (seen cx n).markers = cx.markers := by unfold seen; split <;> rfl
    have hes : (seen cx n).errs = [] := by unfold seen; split <;> exact hc.1
    have hnew := makeChild_new hes hm
    rw [hms] at hnew
    obtain ⟨k, as, ks0⟩ := n
    cases hk
    have hid := findRemove_without hf
    subst hid
    obtain ⟨ks, e2, hks⟩ := ih1 rfl (.inl hm1)
    have hks := hks (grammatical_mk hg rfl).2 (fun c hc => noCustom_kids hnc hc)
    subst e2
    have hin : innerAttr (.sLocal p) as = some attr := innerAttr_of_findRemove rfl hf
    obtain ⟨mk, p1, _, p3, _⟩ := new_args hnew
    have hmk := noCustom_attr hnc hin (toks := toks) (by rw [letArgs_eq]; exact ht) p1
    subst hmk
    obtain ⟨hap, hce⟩ := hal.apart (o := ch.marker) p3 (region_apart (env := env) (ks' := ks) hnc hks)
    obtain ⟨f, hran⟩ := hran
    have := autoEnum_alone_stmt hnew (hce _) hap (env := env) (f := f)
      (by rw [show expandParentStmt env (visit env f) ch (.mk (.sLocal p) (dropFirst (named "auto_enum") as) ks) = _ from hran]; exact hch)
    rw [show expandParentStmt env (visit env f) ch (.mk (.sLocal p) (dropFirst (named "auto_enum") as) ks) = _ from hran] at this
    exact (Composed_some hin).2 ⟨toks, ks, by rw [← ht, ← letArgs_eq]; rfl, hks, f, this⟩
  | @oneBlock vk sc cx cx' ks n h1 h2 h3 _ ih =>
    intro hv hm hg hn
    obtain ⟨k, as, ks0⟩ := n
    simp only [Node.kind] at h1 h2
    have hi : innerAttr k as = none := by
      apply innerAttr_off (ks := ks0)
      apply Node.findRemoveAttr_none (n := .mk k as ks0)
      cases k <;> first
        | (simp [Kind.isExpr] at h1; done) | (simp [Kind.isStmt] at h2; done) | exact absurd rfl (h3 _) | rfl
    have he : endsIn k = false := by cases k <;> first | rfl | cases h2
    rw [rebuild_eq]
    refine Composed_of_kids hi fun ho => ?_
    rw [he]
    have := ih hv hm (grammaticalL_sub hg) (noCustom_sub hn)
    rwa [sub_mk ho] at this
  | @oneInert n cx vk sc h1 h2 h3 _ =>
    intro hv _ hg _
    have ho : oddStatement n.kind n.kids = false := by obtain ⟨k, as, ks⟩ := n; exact odd_grammatical hg
    obtain ⟨k, as, ks0⟩ := n
    simp only [Node.kind, Node.kids] at h1 h2 ho
    cases k <;> first
      | (simp [Kind.isStmt] at h1; done) | exact absurd rfl (h2 _) | skip
    · exfalso
      match ks0, ho with
      | [], h => simp [oddStatement] at h
      | [e], _ => exact h3 _ _ _ rfl
      | _ :: _ :: _, h => simp [oddStatement] at h
    all_goals exact (Composed_none rfl).2 ⟨ks0, by simp [hidesCode], rfl⟩
  | _ => trivial

/-! ## The composition is what is done -/

/-- A context in which nothing has gone wrong. -/
structure Going (ms : List String) (cx : Cx) : Prop where
  clean : Clean cx
  inv : Inv cx
  markers : cx.markers = ms

/-- The visit of the kids. -/
def GivesL (env : Env) (ns ns' : List Node) : Prop := ∀ ms, Alone ms → ∀ sc cx, Going ms cx →
  ∃ f cx', mapA (visit env f .dummy sc) cx ns = (cx', ns') ∧ Going ms cx'

/-- The visit of a node. -/
def Gives (env : Env) (n n' : Node) : Prop := ∀ ms, Alone ms → ∀ sc cx, Going ms cx →
  ∃ f cx', visit env f .dummy sc cx n = (cx', n') ∧ Going ms cx'

/-- The visit of an expression whose attribute, if any, has been noticed. -/
def GivesExpr (env : Env) (semi : Bool) (n n' : Node) : Prop := ∀ ms, Alone ms → ∀ sc cx, Going ms cx →
  (n.anyAttr NAME = true → cx.hasChild = true) →
  ∃ f cx', vsVisitExpr env (visit env f) .dummy sc cx n semi = (cx', n') ∧ Going ms cx'

theorem visit_more {env : Env} {f g : Nat} (h : f ≤ g) {vk : VK} {sc : Scope} {cx cx' : Cx} {n n' : Node}
    (hi : Inv cx) (hv : visit env f vk sc cx n = (cx', n')) (hc : Clean cx') :
    visit env g vk sc cx n = (cx', n') := by
  have h1 : visit env g vk sc cx n = visit env f vk sc cx n :=
    visit_stays env h vk sc cx n hi (by show (visit env f vk sc cx n).1.panics = []; rw [hv]; exact hc.2)
  rw [h1, hv]

theorem mapA_more {env : Env} {f g : Nat} (h : f ≤ g) {vk : VK} {sc : Scope} {cx cx' : Cx} {ns ns' : List Node}
    (hi : Inv cx) (hv : mapA (visit env f vk sc) cx ns = (cx', ns')) (hc : Clean cx') :
    mapA (visit env g vk sc) cx ns = (cx', ns') := by
  have h1 : mapA (visit env g vk sc) cx ns = mapA (visit env f vk sc) cx ns :=
    mapA_stays (visit_good env f) (visit_stays env h) vk sc ns cx hi
      (by show (mapA (visit env f vk sc) cx ns).1.panics = []; rw [hv]; exact hc.2)
  rw [h1, hv]

theorem GivesL_nil {env : Env} : GivesL env [] [] := fun _ _ _ cx h => ⟨0, cx, rfl, h⟩

theorem GivesL_cons {env : Env} {n n' : Node} {ns ns' : List Node} (h1 : Gives env n n') (h2 : GivesL env ns ns') :
    GivesL env (n :: ns) (n' :: ns') := by
  intro ms hms sc cx hcx
  obtain ⟨f, cx1, e1, g1⟩ := h1 ms hms sc cx hcx
  obtain ⟨f', cx2, e2, g2⟩ := h2 ms hms sc cx1 g1
  refine ⟨max f f', cx2, ?_, g2⟩
  simp only [mapA, visit_more (Nat.le_max_left f f') hcx.inv e1 g1.clean,
    mapA_more (Nat.le_max_right f f') g1.inv e2 g2.clean]

/-- The visit of the kids of a node. -/
theorem walk_gives {env : Env} {k : Kind} {as : List Attr} {ks ks' : List Node}
    (h : if hidesCode k then ks' = ks else GivesL env ks ks') {ms : List String} (hms : Alone ms) (sc : Scope) {cx : Cx}
    (hcx : Going ms cx) :
    ∃ f cx', walk (visit env f .dummy sc) cx (.mk k as ks) = (cx', .mk k as ks') ∧ Going ms cx' := by
  simp only [walk]
  rw [hidesCode_eq] at h
  cases ho : k.isOpaque with
  | true =>
    rw [ho, if_pos rfl] at h
    subst h
    exact ⟨0, cx, rfl, hcx⟩
  | false =>
    rw [ho] at h
    obtain ⟨f, cx', e, g⟩ := h ms hms sc cx hcx
    exact ⟨f, cx', by simp [e], g⟩

theorem walk_more {env : Env} {f g : Nat} (h : f ≤ g) {vk : VK} {sc : Scope} {cx cx' : Cx} {n n' : Node}
    (hi : Inv cx) (hv : walk (visit env f vk sc) cx n = (cx', n')) (hc : Clean cx') :
    walk (visit env g vk sc) cx n = (cx', n') := by
  have h1 : walk (visit env g vk sc) cx n = walk (visit env f vk sc) cx n :=
    walk_stays (visit_good env f) (visit_stays env h) vk sc cx n hi
      (by show (walk (visit env f vk sc) cx n).1.panics = []; rw [hv]; exact hc.2)
  rw [h1, hv]

/-- The context of an inner attribute, given that of an attribute of its own. -/
theorem new_inside {h : Nat} {toks : List Tok} {c0 : Cx} (hnew : Cx.new h toks true [] [] = .ok c0)
    (hmk : ∀ traits mk, parseArgs toks = .ok ⟨traits, mk⟩ → mk = none) (ms : List String) :
    ∃ ch, Cx.new h toks false ms [] = .ok ch ∧ ch.marker = "marker" ∧ ch.markers = ms ++ ["marker"] ∧
      Sim0 (ms ++ [ch.marker]) [ch.marker] ch c0 := by
  unfold Cx.new at hnew ⊢
  cases hp : parseArgs toks with
  | error e => rw [hp] at hnew; cases hnew
  | ok a =>
    have hm := hmk a.args a.marker hp
    rw [hp] at hnew
    dsimp only at hnew ⊢
    rw [hm] at hnew ⊢
    cases hnew
    exact ⟨_, rfl, rfl, rfl, true, [DEFAULT_MARKER], rfl, .inr ⟨rfl, rfl⟩, .inr ⟨rfl, rfl, by simp⟩⟩

theorem side_clean {L l ms : List String} {o : String} {x y : Cx × Node} (h : Side ms o L l x y)
    (hc : Clean y.1) : Clean x.1 ∧ x.2 = y.2 := by
  obtain ⟨⟨r, l', h1, _⟩, h2, _⟩ := h
  rw [h1] at hc
  exact ⟨hc, h2.symm⟩

theorem Going.join {ms : List String} {cx ch : Cx} (h : Going [] cx) (hc : Clean ch) (hm : ch.markers = ms ++ ["marker"]) :
    Going ms (cx.joinChild ch) := by
  have h1 := h.markers
  refine ⟨⟨?_, ?_⟩, ?_, ?_⟩
  · simp [Cx.joinChild, Cx.assert, h1, h.clean.1, hc.1]
  · simp [Cx.joinChild, Cx.assert, h1, h.clean.2, hc.2]
  · have := h.inv
    simpa [Cx.joinChild, Cx.assert, h1, Inv] using this
  · simp [Cx.joinChild, Cx.assert, h1, hm]

/-- Alone the macro gives this; so it does for an inner attribute. -/
theorem inside_expr {env : Env} {h : Nat} {toks : List Tok} {semi : Bool} {n n' : Node} (hk : n.kind.isExpr = true)
    (hmk : ∀ traits mk, parseArgs toks = .ok ⟨traits, mk⟩ → mk = none) (hn : Apart ["marker"] "marker" n)
    (hx : ExpandsAs env h toks semi n n') {ms : List String} (hms : Alone ms) :
    ∃ ch f ch', Cx.new h toks false ms [] = .ok ch ∧
      expandParentExpr env (visit env f) ch n semi = (ch', n') ∧ Clean ch' ∧ ch'.markers = ms ++ ["marker"] := by
  obtain ⟨f, hx⟩ := hx
  have key : ∃ c0 c1, Cx.new h toks true [] [] = .ok c0 ∧
      expandParentExpr env (visit env f) c0 n semi = (c1, n') ∧ Clean c1 := by
    rw [asInput_expr hk, asOutput_expr hk] at hx
    cases semi with
    | false =>
      obtain ⟨c0, c1, h1, h2, h3, h4⟩ := autoEnum_code hx
      simp only [Bool.false_eq_true, if_false, expandInput, Option.some.injEq] at h2
      exact ⟨c0, c1, h1, h2, h3, h4⟩
    | true =>
      obtain ⟨c0, c1, h1, h2, h3, h4⟩ := autoEnum_code hx
      simp only [if_true, expandInput, expandParentStmt, Option.some.injEq, Prod.mk.injEq, Node.mk.injEq,
        List.cons.injEq, and_true, true_and] at h2
      exact ⟨c0, c1, h1, Prod.ext h2.1 h2.2, h3, h4⟩
  obtain ⟨c0, c1, h1, h2, h3⟩ := key
  obtain ⟨ch, g1, g2, g3, g4⟩ := new_inside h1 hmk ms
  obtain ⟨hap, hce⟩ := hms.apart g2 hn
  have hs := expandParentExpr_sim (env := env) (visit_sim (hce _) env f) (.inr ⟨rfl, by simp⟩) g4 hap semi
  rw [h2] at hs
  obtain ⟨s1, s2⟩ := side_clean hs h3
  have hr := expandParentExpr_run (visit_run env f) ch n semi s1
  have hkeep := Run.keeps hr.2
  refine ⟨ch, f, _, g1, Prod.ext rfl s2, s1, ?_⟩
  rw [hkeep.markers, g3]

theorem inside_stmt {env : Env} {h : Nat} {toks : List Tok} {semi : Bool} {n n' : Node} {p : LetPat} (hk : n.kind = .sLocal p)
    (hmk : ∀ traits mk, parseArgs toks = .ok ⟨traits, mk⟩ → mk = none) (hn : Apart ["marker"] "marker" n)
    (hx : ExpandsAs env h toks semi n n') {ms : List String} (hms : Alone ms) :
    ∃ ch f ch', Cx.new h toks false ms [] = .ok ch ∧
      expandParentStmt env (visit env f) ch n = (ch', n') ∧ Clean ch' ∧ ch'.markers = ms ++ ["marker"] := by
  obtain ⟨f, hx⟩ := hx
  simp only [asInput, asOutput, hk] at hx
  obtain ⟨c0, c1, h1, h2, h3⟩ := autoEnum_code hx
  simp only [expandInput, Option.some.injEq] at h2
  obtain ⟨ch, g1, g2, g3, g4⟩ := new_inside h1 hmk ms
  obtain ⟨hap, hce⟩ := hms.apart g2 hn
  have hs := expandParentStmt_sim (env := env) (visit_sim (hce _) env f) (.inr ⟨rfl, by simp⟩) g4 hap
  rw [h2] at hs
  obtain ⟨s1, s2⟩ := side_clean hs h3
  have hr := expandParentStmt_run (visit_run env f) ch n s1
  have hkeep := Run.keeps hr.2
  refine ⟨ch, f, _, g1, Prod.ext rfl s2, s1, ?_⟩
  rw [hkeep.markers, g3]

theorem makeChild_going {ms : List String} {cx : Cx} (h : Going ms cx) (hc : cx.hasChild = true) (h0 : Nat) (toks : List Tok) :
    Going [] (cx.makeChild h0 toks).1 ∧ (cx.makeChild h0 toks).2 = Cx.new h0 toks false ms [] := by
  have h1 := h.clean.1
  have h2 := h.markers
  unfold Cx.makeChild Cx.assert
  simp only [hc, if_true, h1, h2]
  exact ⟨⟨⟨rfl, h.clean.2⟩, h.inv, rfl⟩, trivial⟩

theorem Going.seen {ms : List String} {cx : Cx} (h : Going ms cx) (b : Bool) :
    Going ms (if b then { cx with hasChild := true } else cx) := by
  split
  · exact ⟨h.clean, h.inv, h.markers⟩
  · exact h

theorem hasAttr_inner {k : Kind} {as : List Attr} {ks : List Node} {a : Attr} (hi : innerAttr k as = some a) :
    (Node.mk k as ks).findRemoveAttr NAME = some (a, .mk k (dropFirst (named "auto_enum") as) ks) ∧
      (Node.mk k as ks).anyAttr NAME = true := by
  cases hf : (Node.mk k as ks).findRemoveAttr NAME with
  | none => rw [innerAttr_off hf] at hi; cases hi
  | some r =>
    obtain ⟨b, n1⟩ := r
    have hk : mayCarry k = true := by
      unfold innerAttr at hi; split at hi
      · assumption
      · cases hi
    have := innerAttr_of_findRemove hk hf
    rw [hi] at this
    cases this
    have := findRemove_without hf
    subst this
    exact ⟨rfl, (Node.findRemoveAttr_some hf).2.2.1⟩

theorem composed_gives {env : Env} : ∀ (n : Node), grammatical n = true → noCustom n → ∀ n',
    (∀ semi, n.kind.isExpr = true → Composed env semi n n' → GivesExpr env semi n n') ∧
    (Composed env false n n' → Gives env n n') := by
  intro n
  induction n using Node.ind with
  | h k as ks ih =>
    intro hg hn n'
    -- the kids
    have hkids : ∀ ks', endsIn k = false → (if hidesCode k then ks' = ks else ComposedL env (endsIn k) ks ks') →
        (if hidesCode k then ks' = ks else GivesL env ks ks') := by
      intro ks' hek h1
      split
      · rename_i hk; rwa [if_pos hk] at h1
      · rename_i hk
        rw [if_neg hk, hek] at h1
        have hgk := (grammatical_mk hg (by simpa using hk)).2
        have hnk : ∀ c ∈ ks, noCustom c := fun c hc => noCustom_kids hn hc
        clear hg hn
        induction ks generalizing ks' with
        | nil => rw [ComposedL_nil] at h1; subst h1; exact GivesL_nil
        | cons c cs ihs =>
          obtain ⟨m, ms, rfl, g1, g2⟩ := ComposedL_cons.1 h1
          rw [grammaticalL, Bool.and_eq_true] at hgk
          exact GivesL_cons ((ih c (by simp) hgk.1 (hnk c (by simp)) _).2 g1)
            (ihs (fun d hd => ih d (by simp [hd])) ms g2 hgk.2 (fun d hd => hnk d (by simp [hd])))
    -- an expression
    have hexpr : ∀ semi, k.isExpr = true → Composed env semi (.mk k as ks) n' →
        GivesExpr env semi (.mk k as ks) n' := by
      intro semi hk hc ms hms sc cx hcx hch
      have hek : endsIn k = false := by cases k <;> first | rfl | cases hk
      unfold vsVisitExpr
      cases hi : innerAttr k as with
      | none =>
        obtain ⟨ks', h1, rfl⟩ := (Composed_none hi).1 hc
        have hf : (Node.mk k as ks).findRemoveAttr NAME = none := by
          cases hf : (Node.mk k as ks).findRemoveAttr NAME with
          | none => rfl
          | some r =>
            rw [innerAttr_of_findRemove (k := k) (isExpr_mayCarry (n := .mk k as ks) hk hf) hf] at hi
            cases hi
        simp only [hf]
        exact walk_gives (hkids ks' hek h1) hms sc hcx
      | some a =>
        obtain ⟨toks, ks', h1, h2, h3⟩ := (Composed_some hi).1 hc
        obtain ⟨hf, hany⟩ := hasAttr_inner (ks := ks) hi
        have hform : a.form = .list toks := by
          unfold innerArgs at h1
          split at h1
          · cases hk
          · rename_i hl; cases h1; exact hl
          · cases h1
        obtain ⟨hfm, hfn⟩ := makeChild_going hcx (hch hany) (env.hash (.mk k (dropFirst (named "auto_enum") as) ks)) toks
        obtain ⟨f1, cx2, e1, g1⟩ := walk_gives (as := dropFirst (named "auto_enum") as) (hkids ks' hek h2) (.inl rfl) sc hfm
        have hmk : ∀ traits mk, parseArgs toks = .ok ⟨traits, mk⟩ → mk = none := fun traits mk hp =>
          noCustom_attr hn hi (innerArgs_let h1) hp
        obtain ⟨ch, f2, ch', q1, q2, q3, q4⟩ := inside_expr (n := .mk k (dropFirst (named "auto_enum") as) ks') hk hmk
          (region_apart hn h2) h3 hms
        refine ⟨max f1 f2, cx2.joinChild ch', ?_, g1.join q3 q4⟩
        have e2 := walk_more (Nat.le_max_left f1 f2) hfm.inv e1 g1.clean
        have e3 : expandParentExpr env (visit env (max f1 f2)) ch (.mk k (dropFirst (named "auto_enum") as) ks') semi = (ch', n') := by
          rw [← q2]
          exact expandParentExpr_stays (visit_stays env (Nat.le_max_right f1 f2)) ch _ semi (new_fresh q1)
            (by dsimp only; rw [q2]; exact q3.2)
        simp only [hf, hform, hfn, q1, e2, e3]
    refine ⟨hexpr, fun hc ms hms sc cx hcx => ?_⟩
    have herr : cx.hasError = false := by simp [Cx.hasError, hcx.clean.1]
    by_cases hk : k.isExpr = true
    · have hseen := hcx.seen ((Node.mk k as ks).anyAttr NAME)
      obtain ⟨f, cx', e, g⟩ := hexpr false hk hc ms hms sc _ hseen (fun h => by simp [h])
      refine ⟨f + 1, cx', ?_, g⟩
      simp only [visit, dummyStep, Node.kind, hk, if_true, herr, Bool.false_eq_true, if_false]
      exact e
    · by_cases hs : k.isStmt = true
      · have hseen := hcx.seen ((Node.mk k as ks).anyAttr NAME)
        suffices h : ∃ f cx', vsVisitStmt env (visit env f) .dummy sc
            (if (Node.mk k as ks).anyAttr NAME then { cx with hasChild := true } else cx) (.mk k as ks) = (cx', n') ∧
            Going ms cx' by
          obtain ⟨f, cx', e, g⟩ := h
          refine ⟨f + 1, cx', ?_, g⟩
          simp only [visit, dummyStep, Node.kind, hk, hs, if_true, herr, Bool.false_eq_true, if_false]
          exact e
        have hchild : (Node.mk k as ks).anyAttr NAME = true →
            (if (Node.mk k as ks).anyAttr NAME then { cx with hasChild := true } else cx).hasChild = true := by
          intro h; simp [h]
        revert hseen hchild
        generalize (if (Node.mk k as ks).anyAttr NAME then { cx with hasChild := true } else cx) = cx1
        intro hseen hchild
        cases k with
        | sExpr semi =>
          obtain ⟨ks', h1, rfl⟩ := (Composed_none rfl).1 hc
          have ho := odd_grammatical hg
          match ks, ho, hg, hn, ih, h1, hchild with
          | [e], ho, hg, hn, ih, h1, hchild =>
            have he : e.kind.isExpr = true := by simpa [oddStatement, isExprNode_eq'] using ho
            have hge := (grammatical_mk hg rfl).2
            rw [grammaticalL, Bool.and_eq_true] at hge
            obtain ⟨e', ms', rfl, g1, g2⟩ := ComposedL_cons.1 h1
            rw [ComposedL_nil] at g2
            subst g2
            obtain ⟨f, cx', q1, q2⟩ := (ih e (by simp) hge.1 (noCustom_kids hn (by simp)) e').1 semi he g1 ms hms sc cx1 hseen hchild
            exact ⟨f, cx', by simp only [vsVisitStmt, q1], q2⟩
          | [], ho, _, _, _, _, _ => simp [oddStatement] at ho
          | _ :: _ :: _, ho, _, _, _, _, _ => simp [oddStatement] at ho
        | sLocal p =>
          simp only [vsVisitStmt]
          cases hi : innerAttr (.sLocal p) as with
          | none =>
            obtain ⟨ks', h1, rfl⟩ := (Composed_none hi).1 hc
            have hf : (Node.mk (.sLocal p) as ks).findRemoveAttr NAME = none := by
              cases hf : (Node.mk (.sLocal p) as ks).findRemoveAttr NAME with
              | none => rfl
              | some r =>
                rw [innerAttr_of_findRemove (k := .sLocal p) rfl hf] at hi
                cases hi
            simp only [hf, visitLocal]
            exact walk_gives (hkids ks' rfl h1) hms sc hseen
          | some a =>
            obtain ⟨toks, ks', h1, h2, h3⟩ := (Composed_some hi).1 hc
            obtain ⟨hf, hany⟩ := hasAttr_inner (ks := ks) hi
            obtain ⟨hfm, hfn⟩ := makeChild_going hseen (hchild hany)
              (env.hash (.mk (.sLocal p) (dropFirst (named "auto_enum") as) ks)) toks
            obtain ⟨f1, cx2, e1, g1⟩ := walk_gives (as := dropFirst (named "auto_enum") as) (hkids ks' rfl h2) (.inl rfl) sc hfm
            have hmk : ∀ traits mk, parseArgs toks = .ok ⟨traits, mk⟩ → mk = none := fun traits mk hp =>
              noCustom_attr hn hi (innerArgs_let h1) hp
            obtain ⟨ch, f2, ch', q1, q2, q3, q4⟩ := inside_stmt (n := .mk (.sLocal p) (dropFirst (named "auto_enum") as) ks')
              rfl hmk (region_apart hn h2) h3 hms
            refine ⟨max f1 f2, cx2.joinChild ch', ?_, g1.join q3 q4⟩
            have e2 := walk_more (Nat.le_max_left f1 f2) hfm.inv e1 g1.clean
            have e3 : expandParentStmt env (visit env (max f1 f2)) ch
                (.mk (.sLocal p) (dropFirst (named "auto_enum") as) ks') = (ch', n') := by
              rw [← q2]
              exact expandParentStmt_stays (visit_good env f2) (visit_stays env (Nat.le_max_right f1 f2)) ch _ (new_fresh q1)
                (by dsimp only; rw [q2]; exact q3.2)
            have h1' : (match a.form with
                | .path => some []
                | .list toks => some toks
                | .nameValue => none) = some toks := by
              have := innerArgs_let h1
              rw [letArgs_eq] at this
              exact this
            cases hform : a.form with
            | path =>
              rw [hform] at h1'
              injection h1' with h1'
              subst h1'
              simp only [hf, hform, hfn, q1, visitLocal, e2, e3]
            | list ts =>
              rw [hform] at h1'
              injection h1' with h1'
              subst h1'
              simp only [hf, hform, hfn, q1, visitLocal, e2, e3]
            | nameValue =>
              rw [hform] at h1'
              cases h1'
        | sItem i =>
          obtain ⟨ks', h1, rfl⟩ := (Composed_none rfl).1 hc
          rw [if_pos (by rfl)] at h1
          subst h1
          exact ⟨0, cx1, rfl, hseen⟩
        | sMacro p t =>
          obtain ⟨ks', h1, rfl⟩ := (Composed_none rfl).1 hc
          rw [if_pos (by rfl)] at h1
          subst h1
          exact ⟨0, cx1, rfl, hseen⟩
        | _ => cases hs
      · have hek : endsIn k = false := by cases k <;> first | rfl | (exact absurd rfl hs)
        have hi : innerAttr k as = none := by
          cases k <;> first | rfl | exact absurd rfl hk | exact absurd rfl hs
        obtain ⟨ks', h1, rfl⟩ := (Composed_none hi).1 hc
        obtain ⟨f, cx', e, g⟩ := walk_gives (as := as) (hkids ks' hek h1) hms sc hcx
        refine ⟨f + 1, cx', ?_, g⟩
        simp only [visit, dummyStep, Node.kind, hk, hs, Bool.false_eq_true, if_false]
        exact e

/-! ## The theorem -/

theorem composedL_gives {env : Env} : ∀ (ns ns' : List Node), grammaticalL ns = true → (∀ n ∈ ns, noCustom n) →
    ComposedL env false ns ns' → GivesL env ns ns'
  | [], _, _, _, h => by rw [ComposedL_nil] at h; subst h; exact GivesL_nil
  | n :: ns, _, hg, hn, h => by
    obtain ⟨m, ms, rfl, g1, g2⟩ := ComposedL_cons.1 h
    rw [grammaticalL, Bool.and_eq_true] at hg
    exact GivesL_cons ((composed_gives n hg.1 (hn n (by simp)) m).2 g1)
      (composedL_gives ns ms hg.2 (fun c hc => hn c (by simp [hc])) g2)

theorem composes_expr {env : Env} {cx cx' : Cx} {semi : Bool} {e e' : Node} (ha : cx.args = []) (ht : cx.traits = [])
    (hm : cx.markers = ["marker"]) (hg : grammatical e = true) (hn : noCustom e) (h : Run env (onExpr semi cx e cx' e')) :
    Composed env false e e' := by
  cases h with
  | exprDummy _ h => cases semi <;> exact Run.composes h rfl (.inr hm) hg hn
  | exprBuild hd _ => cases semi <;> simp [Cx.isDummy, ha, ht] at hd

theorem gives_expr {env : Env} {cx : Cx} {semi : Bool} {e e' : Node} (hcx : Going ["marker"] cx) (ha : cx.args = [])
    (ht : cx.traits = []) (hmode : cx.mode = .default) (h : Gives env e e') :
    ∃ f cx', expandParentExpr env (visit env f) cx e semi = (cx', e') ∧ Clean cx' := by
  have hd : (if semi then { cx with lastMode := .never } else cx).isDummy = true := by
    cases semi <;> simp [Cx.isDummy, ha, ht]
  have hg : Going ["marker"] (if semi then { cx with lastMode := .never } else cx) := by
    cases semi with
    | false => exact hcx
    | true => exact ⟨hcx.clean, fun h => absurd hmode h, hcx.markers⟩
  have ha' : (if semi then { cx with lastMode := .never } else cx).args = [] := by cases semi <;> exact ha
  obtain ⟨f, cx', h1, h2⟩ := h ["marker"] (.inr rfl) {} _ hg
  refine ⟨f, cx', ?_, h2.clean⟩
  unfold expandParentExpr
  simp only [hd, if_true, dummyExpr, Cx.assert, ha', List.isEmpty_nil]
  exact h1

theorem local_kept {env : Env} {cx : Cx} {p : LetPat} {as : List Attr} {ks : List Node} (hf : Fresh cx) (ha : cx.args = [])
    (hinf : inferredFor env.typeAnalysis [] (.mk (.sLocal p) as ks) = []) :
    (localAnalysis env cx p).1.traits = [] ∧ (localAnalysis env cx p).2 = p := by
  obtain ⟨l1, l2, _⟩ := localAnalysis_traits (env := env) hf p as ks
  rw [ha] at l1 l2
  have hrt : retype env.typeAnalysis [] (.mk (.sLocal p) as ks) = .mk (.sLocal p) as ks := by
    unfold retype
    split
    · rename_i heq
      cases heq
      rw [if_neg]
      rintro ⟨h1, h2⟩
      exact h2 (by simpa [inferredFor, annotationOf, h1] using hinf)
    · rfl
  rw [hrt] at l2
  rw [hinf] at l1
  injection l2 with l2 _ _
  injection l2 with l2
  exact ⟨l1, l2⟩

theorem fn_kept {env : Env} {cx : Cx} {name : String} {ret : Option Ty} {as asb : List Attr} {ss : List Node}
    (hf : Fresh cx) (ha : cx.args = [])
    (hinf : inferredFor env.typeAnalysis [] (.mk (.iFn name ret) as [.mk .block asb ss]) = []) :
    (fnAnalysis env cx ret (.mk .block asb ss)).isDummy = true := by
  obtain ⟨l1, _⟩ := fnAnalysis_traits (env := env) hf name ret as [.mk .block asb ss] (.mk .block asb ss)
  rw [ha, hinf] at l1
  simp [Cx.isDummy, (fnAnalysis_kept (env := env) (cx := cx) (ret := ret) rfl).args, ha, l1]

/-- C68, exactly: with no trait among the arguments, none inferred and no custom markers, the macro accepts
its input, and gives this output, if and only if one after the other, from the inside to the outside, the
macro on its own accepts every annotated expression and `let`, and the output is the input with each of them
replaced by what the macro has made of it. -/
theorem C68_exact (env : Env) (h : Nat) (toks : List Tok) (input : Input) (n out : Node)
    (hargs : IsArgs toks [] none) (hin : Spec.target input = some n)
    (hinf : inferredFor env.typeAnalysis [] n = []) (hg : grammatical n = true) (hc : noCustom n) :
    (∃ fuel, autoEnum env fuel h toks input = .code out) ↔ InputComposed env out input := by
  have hparse := (parseArgs_iff _ _ _).mpr hargs
  obtain ⟨cx, hnew⟩ : ∃ cx, Cx.new h toks true [] [] = .ok cx := by
    unfold Cx.new
    rw [hparse]
    exact ⟨_, rfl⟩
  have hf := new_fresh hnew
  obtain ⟨m, p1, p2, p3, p4, p5, p6, p7, _⟩ := new_args hnew
  rw [hparse] at p1
  injection p1 with p1
  injection p1 with ha hm
  subst hm
  have ha : cx.args = [] := ha.symm
  have hm : cx.markers = ["marker"] := by rw [p4, p3]; rfl
  have ht := hf.traits
  have hgo : Going ["marker"] cx := ⟨⟨p6, p7⟩, fun hd => absurd hf.mode hd, hm⟩
  constructor
  · rintro ⟨fuel, hrun⟩
    obtain ⟨cx0, cx', hnew', _, _, h1⟩ := code_run hrun
    rw [hnew] at hnew'
    injection hnew' with hnew'
    subst hnew'
    rcases h1 with ⟨s, rfl, hr⟩ | ⟨e, rfl, hr⟩
    · unfold Spec.target at hin
      split at hin
      · rename_i heq; cases heq
      · rename_i heq
        cases heq
        cases hin
        have hge := (grammatical_mk hg rfl).2
        rw [grammaticalL, Bool.and_eq_true] at hge
        cases hr with
        | stmtExpr hr =>
          exact ⟨_, ComposedL_cons.2 ⟨_, _, rfl,
            composes_expr ha ht hm hge.1 (noCustom_kids hc (by simp)) hr, ComposedL_nil.2 rfl⟩, rfl⟩
        | stmtInert _ _ h3 => exact absurd rfl (h3 _ _ _)
      · rename_i p as ks heq
        cases heq
        cases hin
        obtain ⟨l1, l2⟩ := local_kept hf ha hinf
        cases hr with
        | stmtLocalDummy hl hd hr =>
          have hk := localAnalysis_kept hl
          rw [hl] at l2
          cases l2
          have := Run.composes hr rfl (.inr (by rw [hk.markers, hm])) (grammatical_mk hg rfl).2
            (fun c hk => noCustom_kids hc hk)
          exact ⟨_, this, rfl⟩
        | stmtLocal hl hd _ =>
          have hk := localAnalysis_kept hl
          rw [hl] at l1
          exact absurd l1 (by simpa [Cx.isDummy, hk.args, ha] using hd)
        | stmtInert _ h2 _ _ => exact absurd rfl (h2 _)
      · rename_i name ret as asb ss heq
        cases heq
        cases hin
        have hd := fn_kept hf ha hinf
        cases hr with
        | stmtFnDummy hl _ hr =>
          have hk := fnAnalysis_kept hl
          have := Run.composes hr rfl (.inr (by rw [hk.markers, hm])) (grammatical_mk hg rfl).2
            (fun c hk => noCustom_kids hc hk)
          exact ⟨_, this, rfl⟩
        | stmtFnExit hl h2 => rw [← hl, hd] at h2; cases h2
        | stmtFn hl h2 => rw [← hl, hd] at h2; cases h2
        | stmtInert _ _ _ h4 => exact absurd rfl (h4 _ _ _ _ _)
      · cases hin
    · cases hin
      exact composes_expr ha ht hm hg hc hr
  · intro hcomp
    suffices hs : ∃ f cx', expandInput env f cx input = some (cx', out) ∧ Clean cx' by
      obtain ⟨f, cx', h1, h2⟩ := hs
      refine ⟨f, ?_⟩
      simp [autoEnum, hnew, h1, finish, h2.1, h2.2]
    cases input with
    | invalid => cases hcomp
    | expr e =>
      cases hin
      obtain ⟨f, cx', h1, h2⟩ := gives_expr (semi := false) hgo ha ht hf.mode ((composed_gives _ hg hc out).2 hcomp)
      exact ⟨f, cx', congrArg some h1, h2⟩
    | stmt s =>
      obtain ⟨ks', h1, rfl⟩ := hcomp
      unfold Spec.target at hin
      split at hin
      · rename_i heq; cases heq
      · rename_i b as e heq
        cases heq
        cases hin
        obtain ⟨e', _, rfl, g1, g2⟩ := ComposedL_cons.1 h1
        rw [ComposedL_nil] at g2
        subst g2
        have hge := (grammatical_mk hg rfl).2
        rw [grammaticalL, Bool.and_eq_true] at hge
        obtain ⟨f, cx', q1, q2⟩ := gives_expr (semi := b) hgo ha ht hf.mode
          ((composed_gives e hge.1 (noCustom_kids hc (by simp)) e').2 g1)
        exact ⟨f, cx', by simp only [expandInput, expandParentStmt, q1]; rfl, q2⟩
      · rename_i p as ks heq
        cases heq
        cases hin
        obtain ⟨l1, l2⟩ := local_kept hf ha hinf
        have hk : Kept cx (localAnalysis env cx p).1 := localAnalysis_kept rfl
        have hd : (localAnalysis env cx p).1.isDummy = true := by simp [Cx.isDummy, hk.args, ha, l1]
        have hgl : Going ["marker"] (localAnalysis env cx p).1 := by
          obtain ⟨_, _, _, m1, m2⟩ := localAnalysis_traits (env := env) hf p as ks
          refine ⟨?_, fun hd => absurd (m1.trans hf.mode) hd, by rw [hk.markers, hm]⟩
          have := hgo.clean
          unfold localAnalysis
          split
          · split
            · exact this
            · exact this
          · exact this
        obtain ⟨f, cx', q1, q2⟩ := walk_gives (k := .sLocal p) (as := as)
          (composedL_gives ks ks' (grammatical_mk hg rfl).2 (fun c hk => noCustom_kids hc hk) h1) (.inr rfl) {} hgl
        refine ⟨f, cx', ?_, q2.clean⟩
        simp only [expandInput, expandParentStmt, expandParentLocal, hd, if_true, dummyWalk, Cx.assert, hk.args, ha,
          List.isEmpty_nil, l2]
        exact congrArg some q1
      · rename_i name ret as asb ss heq
        cases heq
        cases hin
        have hd := fn_kept hf ha hinf
        have hk := fnAnalysis_kept (env := env) (cx := cx) (ret := ret) (b := .mk .block asb ss) rfl
        have hgl : Going ["marker"] (fnAnalysis env cx ret (.mk .block asb ss)) := by
          have h1 : (fnAnalysis env cx ret (.mk .block asb ss)).lastMode = cx.lastMode := by
            unfold fnAnalysis
            split
            · rfl
            · dsimp only; split <;> rfl
          refine ⟨?_, fun _ => by rw [h1, hf.lastMode]; simp, by rw [hk.markers, hm]⟩
          have := hgo.clean
          unfold fnAnalysis
          split
          · exact this
          · dsimp only; split <;> exact this
        obtain ⟨f, cx', q1, q2⟩ := walk_gives (k := .iFn name ret) (as := as)
          (composedL_gives _ ks' (grammatical_mk hg rfl).2 (fun c hk => noCustom_kids hc hk) h1) (.inr rfl) {} hgl
        refine ⟨f, cx', ?_, q2.clean⟩
        simp only [expandInput, expandParentStmt, expandParentFn, hd, if_true, dummyWalk, Cx.assert, hk.args, ha,
          List.isEmpty_nil]
        exact congrArg some q1
      · cases hin

/-- The hypotheses are met, and both sides hold of some output: the attribute without arguments on
`fn f() -> impl Iterator { #[auto_enum(Iterator)] let x = match a { .. #[auto_enum(Debug)] if .. }; x }`. -/
example : ∃ out, (enums out).length = 2 ∧ InputComposed Ex.env out (.stmt Ex.idleFn) := by
  obtain ⟨out, h1, h2⟩ := Ex.of_check (o := autoEnum Ex.env 40 5 [] (.stmt Ex.idleFn))
    (p := fun out => (enums out).length == 2) (by decide +kernel)
  exact ⟨out, by simpa using h2, (C68_exact Ex.env 5 [] _ _ _ ((parseArgs_iff _ _ _).mp rfl) rfl rfl
    (by decide +kernel) (noCustom_of (by decide +kernel))).mp ⟨40, h1⟩⟩

end AutoEnums
