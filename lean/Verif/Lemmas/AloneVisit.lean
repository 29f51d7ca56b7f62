import Verif.Lemmas.Alone
import Verif.Lemmas.Tidy

/-! # An inner attribute works like an attribute of its own: the visitors -/

namespace AutoEnums

open Spec

section
variable {ms : List String} {o : String}

/-! ## The code stays apart -/

theorem apart_nil {k : Kind} {ks : List Node} (h1 : ∀ p t, k ≠ .eMacro p t) (h2 : ∀ p t, k ≠ .sMacro p t)
    (h : ∀ c ∈ ks, Apart ms o c) : Apart ms o (.mk k [] ks) :=
  apart_mk.2 ⟨fun p t h => h.elim (fun h => absurd h (h1 p t)) (fun h => absurd h (h2 p t)), by simp, h⟩

theorem apart_call {as : List Attr} {p : Path} {e : Node} (ha : ∀ a ∈ as, declaresNone ms a) (h : Apart ms o e) :
    Apart ms o (exprCall as p e) := by
  unfold exprCall pathE
  refine apart_mk.2 ⟨by simp, ha, fun c hc => ?_⟩
  simp only [List.mem_cons, List.not_mem_nil, or_false] at hc
  rcases hc with rfl | rfl
  · exact apart_nil (by simp) (by simp) (by simp)
  · exact h

theorem Spec.Apart.kids {k : Kind} {as : List Attr} {ks ks' : List Node} (h : Apart ms o (.mk k as ks))
    (h' : ∀ c ∈ ks', Apart ms o c) : Apart ms o (.mk k as ks') :=
  apart_mk.2 ⟨(apart_mk.1 h).1, (apart_mk.1 h).2.1, h'⟩

theorem Spec.Apart.attrs {k : Kind} {as as' : List Attr} {ks : List Node} (h : Apart ms o (.mk k as ks))
    (h' : ∀ a ∈ as', a ∈ as) : Apart ms o (.mk k as' ks) :=
  apart_mk.2 ⟨(apart_mk.1 h).1, fun a ha => (apart_mk.1 h).2.1 a (h' a ha), (apart_mk.1 h).2.2⟩

theorem apart_unit : Apart ms o unitE := apart_nil (by simp) (by simp) (by simp)

theorem Wr.apart {n n' : Node} (h : Wr n n') : Apart ms o n → Apart ms o n' := by
  induction h with
  | refl => exact id
  | trans _ _ h1 h2 => exact fun h => h2 (h1 h)
  | kid hk hw ih =>
    intro h
    refine h.kids fun c hc => ?_
    simp only [List.mem_append, List.mem_cons] at hc
    rcases hc with hc | rfl | hc
    · exact h.kid (by simp [hc])
    · exact ih (h.kid (by simp))
    · exact h.kid (by simp [hc])
  | val hk =>
    intro h
    refine h.kids fun c hc => ?_
    simp only [List.mem_cons] at hc
    rcases hc with rfl | hc
    · exact apart_call (by simp) (h.kid (by simp))
    · exact h.kid (by simp [hc])
  | arm hg =>
    intro h
    refine h.kids fun c hc => ?_
    simp only [List.mem_append, List.mem_singleton] at hc
    rcases hc with hc | rfl
    · exact h.kid (by simp [hc])
    · exact apart_call (by simp) (h.kid (by simp))
  | block hk =>
    intro h
    refine h.kids fun c hc => ?_
    simp only [List.mem_singleton] at hc
    subst hc
    refine apart_nil (by simp) (by simp) fun c hc => ?_
    simp only [List.mem_singleton] at hc
    subst hc
    exact apart_call (by simp) (apart_nil (by simp) (by simp) fun c hc => h.kid hc)
  | fill hk =>
    intro h
    refine h.kids fun c hc => ?_
    simp only [List.mem_singleton] at hc
    subst hc
    exact apart_call (by simp) apart_unit

theorem findRemoveAttr_apart {n n1 : Node} {s : String} {a : Attr} (h : n.findRemoveAttr s = some (a, n1))
    (hn : Apart ms o n) : Apart ms o n1 ∧ declaresNone ms a := by
  obtain ⟨_, _, _, l1, l2, h1, rfl⟩ := Node.findRemoveAttr_some h
  obtain ⟨k, as, ks⟩ := n
  simp only [Node.rawAttrs] at h1
  subst h1
  exact ⟨hn.attrs (fun x hx => by simp at hx ⊢; exact hx.elim .inl (fun h => .inr (.inr h))),
    (apart_mk.1 hn).2.1 a (by simp)⟩

theorem visitMode_apart (sc : Scope) (cx : Cx) {n : Node} (hn : Apart ms o n) :
    Apart ms o (visitMode sc cx n).2 := by
  unfold visitMode
  split
  · unfold visitReturn
    split
    · split
      · rename_i as ks _
        unfold Cx.replaceBoxed
        split
        · refine hn.kids fun c hc => ?_
          simp only [List.mem_singleton] at hc
          subst hc
          exact apart_call (by simp) apart_unit
        · rename_i e rest
          split
          · exact hn
          · refine hn.kids fun c hc => ?_
            simp only [List.mem_cons] at hc
            rcases hc with rfl | hc
            · exact apart_call (by simp) (hn.kid (by simp))
            · exact hn.kid (by simp [hc])
      · exact hn
    · exact hn
  · unfold visitTry
    split
    · split
      · rename_i as e _
        split
        · exact hn
        · have : Apart ms o (.mk .eMatch as [e]) :=
            apart_mk.2 ⟨by simp, (apart_mk.1 hn).2.1, (apart_mk.1 hn).2.2⟩
          refine this.kids fun c hc => ?_
          simp only [tryArms, List.mem_cons, List.not_mem_nil, or_false] at hc
          have np : ∀ p, Apart ms o (pathE p) := fun p => apart_nil (by simp) (by simp) (by simp)
          rcases hc with rfl | rfl | rfl
          · exact hn.kid (by simp)
          · refine apart_nil (by simp) (by simp) fun c hc => ?_
            simp only [List.mem_singleton] at hc
            subst hc
            exact np _
          · refine apart_nil (by simp) (by simp) fun c hc => ?_
            simp only [List.mem_singleton] at hc
            subst hc
            refine apart_nil (by simp) (by simp) fun c hc => ?_
            simp only [List.mem_singleton] at hc
            subst hc
            refine apart_nil (by simp) (by simp) fun c hc => ?_
            simp only [List.mem_singleton] at hc
            subst hc
            refine apart_nil (by simp) (by simp) fun c hc => ?_
            simp only [List.mem_singleton] at hc
            subst hc
            refine apart_call (p := ⟨true, _⟩) (by simp) ?_
            exact apart_call (by simp) (np _)
      · exact hn
    · exact hn
  · exact hn

theorem visitMarker_apart (hce : callsNone ms o (.ofIdents ["compile_error"])) (sc : Scope) (cx : Cx) {n : Node}
    (hn : Apart ms o n) : Apart ms o (visitMarker sc cx n).2 := by
  unfold visitMarker
  dsimp only
  split
  · rename_i p t as ks
    split
    · split
      · split
        · exact hn.kid (by simp)
        · exact apart_call (apart_mk.1 hn).2.1 (hn.kid (by simp))
      · unfold failedMarker
        refine apart_mk.2 ⟨fun p t h => ?_, by simp, by simp⟩
        simp only [Kind.eMacro.injEq, reduceCtorEq, or_false] at h
        rw [← h.1]; exact hce
    · exact hn
  · exact hn

theorem findRemoveAttrs_apart (sc : Scope) (cx : Cx) {n : Node} (hn : Apart ms o n) :
    Apart ms o (findRemoveAttrs sc cx n).2 := by
  unfold findRemoveAttrs
  split
  · exact hn
  · dsimp only
    split
    · rename_i h
      refine (findRemoveAttr_apart h ?_).1
      split
      · rename_i h'; exact (findRemoveAttr_apart h' hn).1
      · exact hn
    · split
      · rename_i h'; exact (findRemoveAttr_apart h' hn).1
      · exact hn

theorem visitNested_apart (sc : Scope) (cx : Cx) {n : Node} (hn : Apart ms o n) (a : Attr) :
    Apart ms o (visitNested sc cx n a).2 := by
  unfold visitNested
  dsimp only
  split
  · exact (childExpr_Wr _ _).apart hn
  · exact hn

/-! ## The two contexts -/

/-- The markers in scope inside and alone. -/
def Par (ms : List String) (o : String) (L l : List String) : Prop := L = l ∨ (L = ms ++ l ∧ o ∈ l)

structure Cond (L l : List String) (a : Cx) (r : Bool) (l' : List String) : Prop where
  markers : (a.markers = [] ∧ l' = []) ∨ (a.markers = L ∧ l' = l)
  root : a.root = r ∨ (a.root = false ∧ r = true ∧ ∀ m ∈ l, m = a.marker)

def Sim0 (L l : List String) (a b : Cx) : Prop := ∃ r l', b = a.recast r l' ∧ Cond L l a r l'

theorem Cond.same {L l l' : List String} {a a' : Cx} {r : Bool} (h : Cond L l a r l') (hs : Kept a a') :
    Cond L l a' r l' := by
  obtain ⟨h1, h2⟩ := h
  refine ⟨?_, ?_⟩
  · rwa [hs.markers]
  · rwa [hs.root, hs.marker]

theorem Cond.agree {L l l' : List String} {a : Cx} {r : Bool} (hp : Par ms o L l) (h : Cond L l a r l') :
    Concord ms o a r l' := by
  intro p hc
  have hc' : ∀ m ∈ ms, p.isIdent m = true → m = o := fun m hm h => hc m hm ((isIdent_iff _ _).1 h)
  unfold Cx.isMarker Cx.recast
  dsimp only
  have e : Cx.isMarkerExact { a with root := r, markers := l' } p = a.isMarkerExact p := rfl
  rw [e]
  cases hx : a.isMarkerExact p with
  | true => simp
  | false =>
    -- `l'` and the markers inside mean the same for `p`
    have hany : l'.any (p.isIdent ·) = a.markers.any (p.isIdent ·) := by
      rcases h.markers with ⟨h1, h2⟩ | ⟨h1, h2⟩
      · rw [h1, h2]
      · rw [h1, h2]
        rcases hp with rfl | ⟨rfl, ho⟩
        · rfl
        · rw [List.any_append, Bool.eq_iff_iff, Bool.or_eq_true]
          refine ⟨.inr, fun h => h.elim (fun h => ?_) id⟩
          rw [List.any_eq_true] at h ⊢
          obtain ⟨m, hm, h⟩ := h
          have := hc' m hm h
          subst this
          exact ⟨m, ho, h⟩
    rcases h.root with h' | ⟨h1, h2, h3⟩
    · rw [h', hany]
    · rw [h1, h2]
      simp only [Bool.or_true, if_true, Bool.or_false, Bool.false_eq_true, if_false]
      rw [← hany, eq_comm, List.any_eq_false]
      intro m hm
      have : m ∈ l := by
        rcases h.markers with ⟨_, h⟩ | ⟨_, h⟩ <;> subst h
        · cases hm
        · exact hm
      rw [h3 m this]
      have : p.isIdent a.marker = false := hx
      simp [this]

/-- The same result in contexts that correspond. -/
structure Side (ms : List String) (o : String) (L l : List String) (x y : Cx × Node) : Prop where
  cx : Sim0 L l x.1 y.1
  node : y.2 = x.2
  apart : Apart ms o x.2

theorem Side.rc {L l l' : List String} {a : Cx} {r : Bool} {x : Cx × Node} (h : Cond L l a r l') (hs : Same a x.1)
    (hx : Apart ms o x.2) : Side ms o L l x (AutoEnums.rc r l' x) :=
  ⟨⟨r, l', rfl, h.same hs.toKept⟩, rfl, hx⟩

theorem Sim0.hasError {L l : List String} {a b : Cx} (h : Sim0 L l a b) : b.hasError = a.hasError := by
  obtain ⟨r, l', rfl, _⟩ := h; rfl

theorem Sim0.marker {L l : List String} {a b : Cx} (h : Sim0 L l a b) : b.marker = a.marker := by
  obtain ⟨r, l', rfl, _⟩ := h; rfl

theorem Sim0.error {L l : List String} {a b : Cx} (h : Sim0 L l a b) (e : Err) :
    Sim0 L l (a.error e) (b.error e) := by
  obtain ⟨r, l', rfl, h⟩ := h; exact ⟨r, l', rfl, h.same (Same.error _ _).toKept⟩

theorem Sim0.assert {L l : List String} {a b : Cx} (h : Sim0 L l a b) (c : Bool) (e : Panic) :
    Sim0 L l (a.assert c e) (b.assert c e) := by
  obtain ⟨r, l', rfl, h⟩ := h
  exact ⟨r, l', assert_recast _ _ _, h.same (Same.assert _ _ _).toKept⟩

/-- The attribute's new context. -/
theorem makeChild_sim {L l : List String} (hp : Par ms o L l) {a b : Cx} (h : Sim0 L l a b) {at_ : Attr}
    (ha : declaresNone ms at_) (hn : at_.is NAME = true) {toks : List Tok}
    (ht : at_.form = .list toks ∨ at_.form = .path ∧ toks = []) (n : Nat) :
    Sim0 L l (a.makeChild n toks).1 (b.makeChild n toks).1 ∧
    ((∃ e, (a.makeChild n toks).2 = .error e ∧ (b.makeChild n toks).2 = .error e) ∨
     ∃ ch ch0 L' l', (a.makeChild n toks).2 = .ok ch ∧ (b.makeChild n toks).2 = .ok ch0 ∧ Par ms o L' l' ∧
       Sim0 L' l' ch ch0 ∧
       (L'.dropLast = [] ∧ l'.dropLast = [] ∨ L'.dropLast = L ∧ l'.dropLast = l)) := by
  have hcl : (b.hasChild) = a.hasChild := by obtain ⟨r, l', rfl, _⟩ := h; rfl
  have h1 := h.assert a.hasChild .makeChildNoChild
  unfold Cx.makeChild
  rw [hcl]
  revert h1
  generalize a.assert a.hasChild .makeChildNoChild = a1
  generalize b.assert a.hasChild .makeChildNoChild = b1
  rintro ⟨r, l', rfl, hc⟩
  refine ⟨⟨r, [], rfl, .inl ⟨rfl, rfl⟩, hc.root⟩, ?_⟩
  have hpar' : Par ms o a1.markers l' := by
    rcases hc.markers with ⟨h1, h2⟩ | ⟨h1, h2⟩
    · exact .inl (h1.trans h2.symm)
    · rw [h1, h2]; exact hp
  have hpar : ∀ m, Par ms o (a1.markers ++ [m]) (l' ++ [m]) := by
    intro m
    rcases hpar' with h | ⟨h, ho⟩
    · exact .inl (by rw [h])
    · exact .inr ⟨by rw [h, List.append_assoc], by simp [ho]⟩
  have hdrop : ∀ m, ((a1.markers ++ [m]).dropLast = [] ∧ (l' ++ [m]).dropLast = [] ∨
      (a1.markers ++ [m]).dropLast = L ∧ (l' ++ [m]).dropLast = l) := by
    intro m
    simpa using hc.markers
  unfold Cx.new
  cases hargs : parseArgs toks with
  | error e => exact .inl ⟨e, rfl, rfl⟩
  | ok x =>
    dsimp only
    cases hm : x.marker with
    | none =>
      exact .inr ⟨_, _, a1.markers ++ [DEFAULT_MARKER], l' ++ [DEFAULT_MARKER], rfl, rfl, hpar _,
        ⟨false, _, rfl, .inr ⟨rfl, rfl⟩, .inl rfl⟩, hdrop _⟩
    | some m =>
      dsimp only
      have hmn : m ∉ ms := by
        rcases ht with ht | ⟨_, rfl⟩
        · intro hmem
          refine ha ?_ m hmem ⟨toks, x.args, ht, ?_⟩
          · rw [named_iff]; exact hn
          · rw [← parseArgs_iff, hargs]
            obtain ⟨x1, x2⟩ := x
            simp only at hm
            subst hm
            rfl
        · cases hargs; cases hm
      have hcon : (a1.recast r l').markers.contains m = a1.markers.contains m := by
        show l'.contains m = _
        rcases hpar' with h | ⟨h, _⟩
        · rw [h]
        · rw [h, Bool.eq_iff_iff, List.contains_iff_mem, List.contains_iff_mem, List.mem_append]
          exact ⟨.inr, fun h => h.elim (fun h => absurd h hmn) id⟩
      rw [hcon]
      cases hcm : a1.markers.contains m with
      | true => exact .inl ⟨_, rfl, rfl⟩
      | false =>
        exact .inr ⟨_, _, a1.markers ++ [m], l' ++ [m], rfl, rfl, hpar _,
          ⟨false, _, rfl, .inr ⟨rfl, rfl⟩, .inl rfl⟩, hdrop _⟩

theorem joinChild_sim {L l L' l' : List String} {a b c c0 : Cx} (hp : Par ms o L l) (h : Sim0 L l a b)
    (hc : Sim0 L' l' c c0)
    (hd : L'.dropLast = [] ∧ l'.dropLast = [] ∨ L'.dropLast = L ∧ l'.dropLast = l) :
    Sim0 L l (a.joinChild c) (b.joinChild c0) := by
  have he : b.markers.isEmpty = a.markers.isEmpty := by
    obtain ⟨r, l1, rfl, h⟩ := h
    show l1.isEmpty = _
    rcases h.markers with ⟨h1, h2⟩ | ⟨h1, h2⟩
    · rw [h1, h2]
    · rw [h1, h2]
      rcases hp with rfl | ⟨rfl, ho⟩
      · rfl
      · cases l with
        | nil => cases ho
        | cons x xs => cases ms <;> rfl
  have h1 := h.assert a.markers.isEmpty .joinMarkers
  unfold Cx.joinChild
  rw [he]
  revert h1
  generalize a.assert a.markers.isEmpty .joinMarkers = a1
  generalize b.assert a.markers.isEmpty .joinMarkers = b1
  rintro ⟨r, l1, rfl, h1⟩
  obtain ⟨r2, l2, rfl, h2⟩ := hc
  refine ⟨r, l2.dropLast, rfl, ?_, h1.root⟩
  show (c.markers.dropLast = [] ∧ _) ∨ (c.markers.dropLast = L ∧ _)
  rcases h2.markers with ⟨h3, h4⟩ | ⟨h3, h4⟩
  · rw [h3, h4]; exact .inl ⟨rfl, rfl⟩
  · rw [h3, h4]; exact hd

/-! ## The visitors -/

theorem build_kept (cx : Cx) : Kept cx cx.build.1 := by
  unfold Cx.build
  split
  · exact .refl _
  · split
    · exact (Same.error _ _).toKept
    · split <;> exact .refl _

theorem build_apart {cx cx' : Cx} {item : Node} (hb : cx.build = (cx', some item)) : Apart ms o item := by
  unfold Cx.build at hb
  split at hb
  · cases hb
  · split at hb
    · cases hb
    · split at hb
      · cases hb
      · cases hb
        exact apart_nil (by simp) (by simp) (by simp)

/-- The recursive visit gives the same results. -/
def RecSim (ms : List String) (o : String) (rec : Rec) : Prop :=
  ∀ L l, Par ms o L l → ∀ vk sc a b n, Sim0 L l a b → Apart ms o n →
    Side ms o L l (rec vk sc a n) (rec vk sc b n)

variable {rec : Rec} {env : Env} {L l : List String}

theorem mapA_sim {f : Cx → Node → Cx × Node} {a b : Cx}
    (hf : ∀ a b n, Sim0 L l a b → Apart ms o n → Side ms o L l (f a n) (f b n))
    {ns : List Node} (h : Sim0 L l a b) (hn : ∀ c ∈ ns, Apart ms o c) :
    Sim0 L l (mapA f a ns).1 (mapA f b ns).1 ∧ (mapA f b ns).2 = (mapA f a ns).2 ∧
      ∀ c ∈ (mapA f a ns).2, Apart ms o c := by
  induction ns generalizing a b with
  | nil => exact ⟨h, rfl, by simp [mapA]⟩
  | cons n ns ih =>
    have h1 := hf a b n h (hn n (by simp))
    have h2 := ih h1.cx (fun c hc => hn c (by simp [hc]))
    simp only [mapA]
    refine ⟨h2.1, by rw [h1.node, h2.2.1], fun c hc => ?_⟩
    simp only [List.mem_cons] at hc
    rcases hc with rfl | hc
    · exact h1.apart
    · exact h2.2.2 c hc

theorem walk_sim {f : Cx → Node → Cx × Node} {a b : Cx}
    (hf : ∀ a b n, Sim0 L l a b → Apart ms o n → Side ms o L l (f a n) (f b n))
    {n : Node} (h : Sim0 L l a b) (hn : Apart ms o n) : Side ms o L l (walk f a n) (walk f b n) := by
  obtain ⟨k, as, ks⟩ := n
  simp only [walk]
  split
  · exact ⟨h, rfl, hn⟩
  · obtain ⟨h1, h2, h3⟩ := mapA_sim hf h (fun c hc => hn.kid hc)
    exact ⟨h1, by rw [h2], hn.kids h3⟩

variable (hrec : RecSim ms o rec) (hce : callsNone ms o (.ofIdents ["compile_error"]))
include hrec

theorem dummyExpr_sim (hp : Par ms o L l) {a b : Cx} {n : Node} (h : Sim0 L l a b) (hn : Apart ms o n) :
    Side ms o L l (dummyExpr rec a n) (dummyExpr rec b n) := by
  unfold dummyExpr
  have : b.args = a.args := by obtain ⟨r, l', rfl, _⟩ := h; rfl
  rw [this]
  exact hrec L l hp _ _ _ _ _ (h.assert _ _) hn

theorem dummyWalk_sim (hp : Par ms o L l) {a b : Cx} {n : Node} (h : Sim0 L l a b) (hn : Apart ms o n) :
    Side ms o L l (dummyWalk rec a n) (dummyWalk rec b n) := by
  unfold dummyWalk
  have : b.args = a.args := by obtain ⟨r, l', rfl, _⟩ := h; rfl
  rw [this]
  exact walk_sim (f := rec .dummy {}) (fun a b n h hn => hrec L l hp _ _ _ _ _ h hn) (h.assert _ _) hn

theorem expandTarget_sim (hp : Par ms o L l) {a b : Cx} {n : Node} (h : Sim0 L l a b) (hn : Apart ms o n) :
    Side ms o L l (expandTarget env rec a n) (expandTarget env rec b n) := by
  obtain ⟨r, l', rfl, hc⟩ := h
  unfold expandTarget
  rw [childExpr_recast n a (hc.agree hp) hn]
  have hs : Sim0 L l (childExpr a n).1 (rc r l' (childExpr a n)).1 :=
    ⟨r, l', rfl, hc.same (childExpr_same n a).toKept⟩
  have ha := (childExpr_Wr n a).apart hn
  dsimp only
  have he : (rc r l' (childExpr a n)).1.analysisExit env = (childExpr a n).1.analysisExit env := rfl
  rw [he]
  split
  · exact dummyExpr_sim hrec hp hs ha
  · exact hrec L l hp _ _ _ _ _ hs ha

theorem expandExpr_sim (hp : Par ms o L l) {a b : Cx} {n : Node} (h : Sim0 L l a b) (hn : Apart ms o n) :
    Side ms o L l (expandExpr env rec a n) (expandExpr env rec b n) := by
  unfold expandExpr
  have hv : b.visitLast = a.visitLast := by obtain ⟨r, l', rfl, _⟩ := h; rfl
  split
  · rename_i i as body
    rw [hv]
    split
    · obtain ⟨r, l', rfl, hc⟩ := h
      have hb : Apart ms o body := hn.kid (by simp)
      dsimp only
      rw [visitFn_recast (hc.agree hp) hb]
      generalize (if (visitFn a body).try_ ≥ 2 then VisitMode.try_ else .ret (visitFn a body).return_) = m
      have h1 : Sim0 L l { a with mode := m } { a.recast r l' with mode := m } :=
        ⟨r, l', rfl, hc.markers, hc.root⟩
      have := expandTarget_sim (env := env) hrec hp h1 hb
      exact ⟨this.cx, by rw [this.node], hn.kids (by simpa using this.apart)⟩
    · exact expandTarget_sim hrec hp h hn
  · exact expandTarget_sim hrec hp h hn

theorem expandBuild_sim (hp : Par ms o L l) {a b : Cx} {n : Node} (h : Sim0 L l a b) (hn : Apart ms o n) :
    Side ms o L l (expandBuild env rec a n) (expandBuild env rec b n) := by
  have h1 := expandExpr_sim (env := env) hrec hp h hn
  unfold expandBuild
  revert h1
  generalize expandExpr env rec a n = x
  generalize expandExpr env rec b n = y
  rintro ⟨⟨r, l', h1, hc⟩, h2, h3⟩
  dsimp only
  rw [h1, build_recast, h2]
  have hk : Kept x.1 x.1.build.1 := build_kept _
  rcases hb : x.1.build with ⟨c, _ | item⟩
  · rw [hb] at hk
    exact ⟨⟨r, l', rfl, hc.same hk⟩, rfl, h3⟩
  · rw [hb] at hk
    refine ⟨⟨r, l', rfl, hc.same hk⟩, rfl, ?_⟩
    have hitem : Apart ms o item := build_apart hb
    refine apart_nil (by simp) (by simp) fun c hc => ?_
    simp only [List.mem_cons, List.not_mem_nil, or_false] at hc
    rcases hc with rfl | rfl
    · exact hitem
    · exact apart_nil (by simp) (by simp) (by simpa using h3)

theorem expandParentExpr_sim (hp : Par ms o L l) {a b : Cx} {n : Node} (h : Sim0 L l a b) (hn : Apart ms o n)
    (semi : Bool) : Side ms o L l (expandParentExpr env rec a n semi) (expandParentExpr env rec b n semi) := by
  obtain ⟨r, l', rfl, hc⟩ := h
  unfold expandParentExpr
  have h1 : Sim0 L l (if semi then { a with lastMode := .never } else a)
      (if semi then { a.recast r l' with lastMode := .never } else a.recast r l') := by
    split
    · exact ⟨r, l', rfl, hc.markers, hc.root⟩
    · exact ⟨r, l', rfl, hc⟩
  revert h1
  generalize (if semi then { a with lastMode := .never } else a : Cx) = a1
  generalize (if semi then { a.recast r l' with lastMode := .never } else a.recast r l' : Cx) = b1
  intro h1
  have hd : b1.isDummy = a1.isDummy := by obtain ⟨r, l', rfl, _⟩ := h1; rfl
  dsimp only
  rw [hd]
  split
  · exact dummyExpr_sim hrec hp h1 hn
  · exact expandBuild_sim hrec hp h1 hn

theorem expandParentLocal_sim (hp : Par ms o L l) {a b : Cx} {pat : LetPat} {as : List Attr} {ks : List Node}
    (h : Sim0 L l a b) (hn : Apart ms o (.mk (.sLocal pat) as ks)) :
    Side ms o L l (expandParentLocal env rec a pat as ks) (expandParentLocal env rec b pat as ks) := by
  obtain ⟨r, l', rfl, hc⟩ := h
  unfold expandParentLocal
  rw [localAnalysis_recast]
  have hk : Kept a (localAnalysis env a pat).1 := by
    unfold localAnalysis
    split
    · split <;> exact ⟨rfl, rfl, rfl, rfl, rfl, List.prefix_refl _⟩
    · exact .refl _
  have h1 : Sim0 L l (localAnalysis env a pat).1 (rc r l' (localAnalysis env a pat)).1 :=
    ⟨r, l', rfl, hc.same hk⟩
  have hpat : (rc r l' (localAnalysis env a pat)).2 = (localAnalysis env a pat).2 := rfl
  dsimp only
  rw [hpat]
  revert h1
  generalize (rc r l' (localAnalysis env a pat)).1 = b1
  generalize localAnalysis env a pat = x
  obtain ⟨a1, p1⟩ := x
  intro h1
  have hn1 : Apart ms o (.mk (.sLocal p1) as ks) :=
    apart_mk.2 ⟨by simp, (apart_mk.1 hn).2.1, (apart_mk.1 hn).2.2⟩
  have hd : b1.isDummy = a1.isDummy := by obtain ⟨r, l', rfl, _⟩ := h1; rfl
  dsimp only at h1 ⊢
  rw [hd]
  split
  · exact dummyWalk_sim hrec hp h1 hn1
  · split
    · exact ⟨h1.error _, rfl, hn1⟩
    · rename_i e els
      have := expandBuild_sim (env := env) hrec hp h1 (hn1.kid (c := e) (by simp))
      refine ⟨this.cx, by rw [this.node], hn1.kids fun c hc => ?_⟩
      simp only [List.mem_cons] at hc
      rcases hc with rfl | hc
      · exact this.apart
      · exact hn1.kid (by simp [hc])

theorem expandParentFn_sim (hp : Par ms o L l) {a b : Cx} {name : String} {ret : Option Ty} {as asb : List Attr}
    {ss : List Node} (h : Sim0 L l a b) (hn : Apart ms o (.mk (.iFn name ret) as [.mk .block asb ss])) :
    Side ms o L l (expandParentFn env rec a name ret as asb ss) (expandParentFn env rec b name ret as asb ss) := by
  obtain ⟨r, l', rfl, hc⟩ := h
  have hbl : Apart ms o (.mk .block asb ss) := hn.kid (by simp)
  have hfa : fnAnalysis env (a.recast r l') ret (.mk .block asb ss) =
      (fnAnalysis env a ret (.mk .block asb ss)).recast r l' ∧
      Kept a (fnAnalysis env a ret (.mk .block asb ss)) := by
    unfold fnAnalysis
    split
    · exact ⟨rfl, .refl _⟩
    · rename_i ty
      have hm : retMode (a.recast r l') ty (.mk .block asb ss) = retMode a ty (.mk .block asb ss) := by
        unfold retMode
        rw [visitFn_recast (hc.agree hp) hbl]
        rfl
      rw [hm]
      split
      · exact ⟨rfl, ⟨rfl, rfl, rfl, rfl, rfl, List.prefix_refl _⟩⟩
      · exact ⟨rfl, ⟨rfl, rfl, rfl, rfl, rfl, List.prefix_refl _⟩⟩
  unfold expandParentFn
  dsimp only
  rw [hfa.1]
  have hc1 := hc.same hfa.2
  revert hc1
  generalize fnAnalysis env a ret (.mk .block asb ss) = a1
  intro hc1
  have hd : (a1.recast r l').isDummy = a1.isDummy := rfl
  rw [hd]
  split
  · exact dummyWalk_sim hrec hp ⟨r, l', rfl, hc1⟩ hn
  · have hss : ∀ c ∈ ss, Apart ms o c := fun c hc => hbl.kid hc
    have h2 : (if ss.isEmpty = true then ((a1.recast r l').error .emptyFn, ss) else childLast (a1.recast r l') ss) =
        rc r l' (if ss.isEmpty = true then (a1.error .emptyFn, ss) else childLast a1 ss) := by
      split
      · rfl
      · exact childLast_recast (hc1.agree hp) ss hss
    have h3 : Kept a1 (if ss.isEmpty = true then (a1.error .emptyFn, ss) else childLast a1 ss).1 ∧
        Apart ms o (.mk (.iFn name ret) as
          [.mk .block asb (if ss.isEmpty = true then (a1.error .emptyFn, ss) else childLast a1 ss).2]) := by
      split
      · exact ⟨(Same.error _ _).toKept, hn⟩
      · refine ⟨(childLast_same _ _).toKept, hn.kids fun c hc => ?_⟩
        simp only [List.mem_singleton] at hc
        subst hc
        exact (childLast_Wr (k := .block) rfl asb ss a1).apart hbl
    rw [h2]
    revert h3
    generalize (if ss.isEmpty = true then (a1.error .emptyFn, ss) else childLast a1 ss) = x
    obtain ⟨a2, ss2⟩ := x
    rintro ⟨h3, h4⟩
    have hs2 : Sim0 L l a2 (a2.recast r l') := ⟨r, l', rfl, hc1.same h3⟩
    show Side ms o L l (if a2.analysisExit env = true then _ else _)
      (if a2.analysisExit env = true then dummyWalk rec (a2.recast r l') _ else _)
    split
    · exact dummyWalk_sim hrec hp hs2 h4
    · have hw := walk_sim (f := rec .visitor {}) (fun a b n h hn => hrec L l hp _ _ _ _ _ h hn) hs2 h4
      dsimp only [rc]
      revert hw
      generalize walk (rec .visitor {}) a2 (.mk (.iFn name ret) as [.mk .block asb ss2]) = w
      generalize walk (rec .visitor {}) (a2.recast r l') (.mk (.iFn name ret) as [.mk .block asb ss2]) = w0
      obtain ⟨c, n⟩ := w
      obtain ⟨c0, n0⟩ := w0
      rintro ⟨⟨r, l', h1, hc⟩, h2, h3⟩
      dsimp only at h1 h2 h3 hc
      subst h1 h2
      dsimp only
      rw [build_recast]
      have hk : Kept c c.build.1 := build_kept c
      rcases hb : c.build with ⟨c', _ | item⟩
      · rw [hb] at hk
        exact ⟨⟨r, l', rfl, hc.same hk⟩, rfl, h3⟩
      · rw [hb] at hk
        have hitem : Apart ms o item := build_apart hb
        dsimp only [rc]
        split
        · rename_i h; cases h
          refine ⟨⟨r, l', rfl, hc.same hk⟩, rfl, h3.kids fun x hx => ?_⟩
          simp only [List.mem_singleton] at hx
          subst hx
          have hb' := h3.kid (List.mem_singleton.2 rfl)
          refine hb'.kids fun x hx => ?_
          simp only [List.mem_cons] at hx
          rcases hx with rfl | hx
          · exact hitem
          · exact hb'.kid hx
        · rename_i h hno; cases h
          split
          · rename_i h; cases h
            exact absurd rfl (hno _ _ _ _ _ rfl)
          · rename_i h _; cases h
            exact ⟨⟨r, l', rfl, hc.same hk⟩, rfl, h3⟩

theorem expandParentStmt_sim (hp : Par ms o L l) {a b : Cx} {n : Node} (h : Sim0 L l a b) (hn : Apart ms o n) :
    Side ms o L l (expandParentStmt env rec a n) (expandParentStmt env rec b n) := by
  unfold expandParentStmt
  split
  · have := expandParentExpr_sim (env := env) hrec hp h (hn.kid (List.mem_singleton.2 rfl)) ‹Bool›
    exact ⟨this.cx, by dsimp only; rw [this.node], hn.kids (by simpa using this.apart)⟩
  · exact expandParentLocal_sim hrec hp h hn
  · exact expandParentFn_sim hrec hp h hn
  · exact ⟨h.error _, rfl, hn⟩
  · exact ⟨h, rfl, hn⟩

include hce

omit hce in
theorem vsVisitExpr_sim (hp : Par ms o L l) {vk : VK} {sc : Scope} {a b : Cx} {n : Node} (h : Sim0 L l a b)
    (hn : Apart ms o n) (semi : Bool) :
    Side ms o L l (vsVisitExpr env rec vk sc a n semi) (vsVisitExpr env rec vk sc b n semi) := by
  have hw : ∀ {a b n}, Sim0 L l a b → Apart ms o n →
      Side ms o L l (walk (rec vk sc) a n) (walk (rec vk sc) b n) :=
    fun h hn => walk_sim (f := rec vk sc) (fun a b n h hn => hrec L l hp _ _ _ _ _ h hn) h hn
  unfold vsVisitExpr
  cases hf : n.findRemoveAttr NAME with
  | none => exact hw h hn
  | some x =>
    obtain ⟨at_, n1⟩ := x
    obtain ⟨hn1, hd⟩ := findRemoveAttr_apart hf hn
    obtain ⟨_, hname, -⟩ := Node.findRemoveAttr_some hf
    dsimp only
    cases hform : at_.form with
    | list toks =>
      dsimp only
      obtain ⟨h1, h2⟩ := makeChild_sim hp h hd hname (.inl hform) (env.hash n1)
      have h3 := hw h1 hn1
      rcases h2 with ⟨e, he, he'⟩ | ⟨ch, ch0, L', l', he, he', hp', hs', hdr⟩
      · rw [he, he']
        exact ⟨h3.cx.error e, h3.node, h3.apart⟩
      · rw [he, he']
        dsimp only
        rw [h3.node]
        have h4 := expandParentExpr_sim (env := env) hrec hp' hs' h3.apart semi
        exact ⟨joinChild_sim hp h3.cx h4.cx hdr, h4.node, h4.apart⟩
    | path => exact ⟨(hw h hn1).cx.error _, (hw h hn1).node, (hw h hn1).apart⟩
    | nameValue => exact ⟨(hw h hn1).cx.error _, (hw h hn1).node, (hw h hn1).apart⟩

omit hrec hce in
theorem findRemoveAttrs_sim {sc : Scope} {x y : Cx × Node} (h : Side ms o L l x y) :
    Side ms o L l (findRemoveAttrs sc x.1 x.2) (findRemoveAttrs sc y.1 y.2) := by
  obtain ⟨⟨r, l', h1, hc⟩, h2, h3⟩ := h
  rw [h1, h2, findRemoveAttrs_recast]
  exact .rc hc (findRemoveAttrs_same _ _ _) (findRemoveAttrs_apart _ _ h3)

omit hrec in
theorem visitMarker_sim {sc : Scope} {x y : Cx × Node} (h : Side ms o L l x y) :
    Side ms o L l (visitMarker sc x.1 x.2) (visitMarker sc y.1 y.2) := by
  obtain ⟨⟨r, l', h1, hc⟩, h2, h3⟩ := h
  rw [h1, h2, visitMarker_recast]
  exact .rc hc (visitMarker_same _ _ _) (visitMarker_apart hce _ _ h3)

omit hrec hce in
theorem visitNested_sim (hp : Par ms o L l) {sc : Scope} {a b : Cx} {n : Node} (h : Sim0 L l a b)
    (hn : Apart ms o n) (at_ : Attr) :
    Side ms o L l (visitNested sc a n at_) (visitNested sc b n at_) := by
  obtain ⟨r, l', rfl, hc⟩ := h
  rw [visitNested_recast (hc.agree hp) sc hn]
  exact .rc hc (visitNested_same _ _ _ _) (visitNested_apart _ _ hn _)

omit hrec hce in
theorem visitMode_sim (hp : Par ms o L l) {sc : Scope} {a b : Cx} {n : Node} (h : Sim0 L l a b)
    (hn : Apart ms o n) : Side ms o L l (visitMode sc a n) (visitMode sc b n) := by
  obtain ⟨r, l', rfl, hc⟩ := h
  rw [visitMode_recast (hc.agree hp) sc hn]
  exact .rc hc (visitMode_kept _ _ _) (visitMode_apart _ _ hn)

omit hce in
theorem visitLocal_sim (hp : Par ms o L l) {vk : VK} {sc : Scope} {a b : Cx} {n : Node} (h : Sim0 L l a b)
    (hn : Apart ms o n) : Side ms o L l (visitLocal rec vk sc a n) (visitLocal rec vk sc b n) := by
  have hw : ∀ {x y : Cx × Node}, Side ms o L l x y →
      Side ms o L l (walk (rec vk sc) x.1 x.2) (walk (rec vk sc) y.1 y.2) :=
    fun {x y} h => by
      rw [h.node]
      exact walk_sim (f := rec vk sc) (fun a b n h hn => hrec L l hp _ _ _ _ _ h hn) h.cx h.apart
  unfold visitLocal
  cases vk with
  | dummy => exact hw (x := (a, n)) (y := (b, n)) ⟨h, rfl, hn⟩
  | visitor =>
    dsimp only
    rw [h.hasError]
    split
    · exact ⟨h, rfl, hn⟩
    · refine findRemoveAttrs_sim (hw ?_)
      split
      · exact ⟨h, rfl, hn⟩
      · cases hf : n.findRemoveAttr NESTED with
        | none => exact ⟨h, rfl, hn⟩
        | some x =>
          obtain ⟨at_, n1⟩ := x
          obtain ⟨hn1, -⟩ := findRemoveAttr_apart hf hn
          split
          · rename_i h'; cases h'
            rename_i _ p as e els
            have := visitNested_sim hp (sc := sc) h (hn1.kid (c := e) (by simp)) at_
            refine ⟨this.cx, by dsimp only; rw [this.node], hn1.kids fun c hc => ?_⟩
            simp only [List.mem_cons] at hc
            rcases hc with rfl | hc
            · exact this.apart
            · exact hn1.kid (by simp [hc])
          · rename_i _ h'; cases h'
            exact ⟨h, rfl, hn1⟩
          · rename_i h'; cases h'

omit hce in
theorem vsVisitStmt_sim (hp : Par ms o L l) {vk : VK} {sc : Scope} {a b : Cx} {n : Node} (h : Sim0 L l a b)
    (hn : Apart ms o n) : Side ms o L l (vsVisitStmt env rec vk sc a n) (vsVisitStmt env rec vk sc b n) := by
  unfold vsVisitStmt
  split
  · have := vsVisitExpr_sim (env := env) (vk := vk) (sc := sc) hrec hp h (hn.kid (List.mem_singleton.2 rfl)) ‹Bool›
    exact ⟨this.cx, by dsimp only; rw [this.node], hn.kids (by simpa using this.apart)⟩
  · rename_i pat as ks
    cases hf : (Node.mk (.sLocal pat) as ks).findRemoveAttr NAME with
    | none => exact visitLocal_sim hrec hp h hn
    | some x =>
      obtain ⟨at_, n1⟩ := x
      obtain ⟨hn1, hd⟩ := findRemoveAttr_apart hf hn
      obtain ⟨_, hname, -⟩ := Node.findRemoveAttr_some hf
      dsimp only
      have go : ∀ toks, at_.form = .list toks ∨ at_.form = .path ∧ toks = [] →
          Side ms o L l
            (match (a.makeChild (env.hash n1) toks).2 with
              | .error e => ((visitLocal rec vk sc (a.makeChild (env.hash n1) toks).1 n1).1.error e,
                  (visitLocal rec vk sc (a.makeChild (env.hash n1) toks).1 n1).2)
              | .ok child =>
                ((visitLocal rec vk sc (a.makeChild (env.hash n1) toks).1 n1).1.joinChild
                  (expandParentStmt env rec child (visitLocal rec vk sc (a.makeChild (env.hash n1) toks).1 n1).2).1,
                 (expandParentStmt env rec child (visitLocal rec vk sc (a.makeChild (env.hash n1) toks).1 n1).2).2))
            (match (b.makeChild (env.hash n1) toks).2 with
              | .error e => ((visitLocal rec vk sc (b.makeChild (env.hash n1) toks).1 n1).1.error e,
                  (visitLocal rec vk sc (b.makeChild (env.hash n1) toks).1 n1).2)
              | .ok child =>
                ((visitLocal rec vk sc (b.makeChild (env.hash n1) toks).1 n1).1.joinChild
                  (expandParentStmt env rec child (visitLocal rec vk sc (b.makeChild (env.hash n1) toks).1 n1).2).1,
                 (expandParentStmt env rec child (visitLocal rec vk sc (b.makeChild (env.hash n1) toks).1 n1).2).2)) := by
        intro toks ht
        obtain ⟨h1, h2⟩ := makeChild_sim hp h hd hname ht (env.hash n1)
        have h3 := visitLocal_sim (vk := vk) (sc := sc) hrec hp h1 hn1
        rcases h2 with ⟨e, he, he'⟩ | ⟨ch, ch0, L', l', he, he', hp', hs', hdr⟩
        · rw [he, he']
          exact ⟨h3.cx.error e, h3.node, h3.apart⟩
        · rw [he, he']
          dsimp only
          rw [h3.node]
          have h4 := expandParentStmt_sim (env := env) hrec hp' hs' h3.apart
          exact ⟨joinChild_sim hp h3.cx h4.cx hdr, h4.node, h4.apart⟩
      cases hform : at_.form with
      | list toks => exact go toks (.inl hform)
      | path => exact go [] (.inr ⟨hform, rfl⟩)
      | nameValue =>
        have := visitLocal_sim (vk := vk) (sc := sc) hrec hp h hn1
        exact ⟨this.cx.error _, this.node, this.apart⟩
  · exact ⟨h, rfl, hn⟩

omit hrec hce in
theorem Sim0.child {a b : Cx} (h : Sim0 L l a b) (t : Bool) :
    Sim0 L l (if t then { a with hasChild := true } else a) (if t then { b with hasChild := true } else b) := by
  obtain ⟨r, l', rfl, hc⟩ := h
  split
  · exact ⟨r, l', rfl, hc.markers, hc.root⟩
  · exact ⟨r, l', rfl, hc⟩

theorem visitExpr_sim (hp : Par ms o L l) {sc : Scope} {a b : Cx} {n : Node} (h : Sim0 L l a b)
    (hn : Apart ms o n) (semi : Bool) :
    Side ms o L l (visitExpr env rec sc a n semi) (visitExpr env rec sc b n semi) := by
  unfold visitExpr
  dsimp only
  rw [h.hasError]
  have h1 := (h.assert (!a.hasError) .visitAfterError).child (n.anyAttr NAME)
  revert h1
  generalize (if n.anyAttr NAME = true then { a.assert (!a.hasError) .visitAfterError with hasChild := true }
    else a.assert (!a.hasError) .visitAfterError : Cx) = a1
  generalize (if n.anyAttr NAME = true then { b.assert (!a.hasError) .visitAfterError with hasChild := true }
    else b.assert (!a.hasError) .visitAfterError : Cx) = b1
  intro h1
  generalize Scope.check _ _ = sc1
  have h2 := visitMode_sim hp (sc := sc1) h1 hn
  have h3 : Side ms o L l
      (if sc1.foreign = true then visitMode sc1 a1 n else
        match (visitMode sc1 a1 n).2.findRemoveAttr NESTED with
        | some (a, m) => visitNested sc1 (visitMode sc1 a1 n).1 m a
        | none => visitMode sc1 a1 n)
      (if sc1.foreign = true then visitMode sc1 b1 n else
        match (visitMode sc1 b1 n).2.findRemoveAttr NESTED with
        | some (a, m) => visitNested sc1 (visitMode sc1 b1 n).1 m a
        | none => visitMode sc1 b1 n) := by
    split
    · exact h2
    · rw [h2.node]
      cases hf : (visitMode sc1 a1 n).2.findRemoveAttr NESTED with
      | none => exact h2
      | some x =>
        obtain ⟨at_, n1⟩ := x
        obtain ⟨hn1, -⟩ := findRemoveAttr_apart hf h2.apart
        exact visitNested_sim hp h2.cx hn1 at_
  revert h3
  generalize (if sc1.foreign = true then visitMode sc1 a1 n else _) = x
  generalize (if sc1.foreign = true then visitMode sc1 b1 n else _) = y
  intro h3
  have h4 : Side ms o L l (vsVisitExpr env rec .visitor sc1 x.1 x.2 semi)
      (vsVisitExpr env rec .visitor sc1 y.1 y.2 semi) := by
    rw [h3.node]
    exact vsVisitExpr_sim hrec hp h3.cx h3.apart semi
  rw [h4.cx.marker]
  split
  · exact findRemoveAttrs_sim (visitMarker_sim hce h4)
  · exact h4

omit hce in
theorem visitArm_sim (hp : Par ms o L l) {sc : Scope} {a b : Cx} {n : Node} (h : Sim0 L l a b)
    (hn : Apart ms o n) : Side ms o L l (visitArm rec sc a n) (visitArm rec sc b n) := by
  have hw : ∀ {x y : Cx × Node}, Side ms o L l x y →
      Side ms o L l (walk (rec .visitor sc) x.1 x.2) (walk (rec .visitor sc) y.1 y.2) :=
    fun {x y} h => by
      rw [h.node]
      exact walk_sim (f := rec .visitor sc) (fun a b n h hn => hrec L l hp _ _ _ _ _ h hn) h.cx h.apart
  unfold visitArm
  rw [h.hasError]
  split
  · exact ⟨h, rfl, hn⟩
  · refine findRemoveAttrs_sim (hw ?_)
    split
    · exact ⟨h, rfl, hn⟩
    · cases hf : n.findRemoveAttr NESTED with
      | none => exact ⟨h, rfl, hn⟩
      | some x =>
        obtain ⟨at_, n1⟩ := x
        obtain ⟨hn1, -⟩ := findRemoveAttr_apart hf hn
        dsimp only
        split
        · rename_i h'; cases h'
          rename_i _ p as e
          have := visitNested_sim hp (sc := sc) h (hn1.kid (c := e) (by simp)) at_
          exact ⟨this.cx, by dsimp only; rw [this.node], hn1.kids (by simpa using this.apart)⟩
        · rename_i h'; cases h'
          rename_i _ p as g e
          have := visitNested_sim hp (sc := sc) h (hn1.kid (c := e) (by simp)) at_
          refine ⟨this.cx, by dsimp only; rw [this.node], hn1.kids fun c hc => ?_⟩
          simp only [List.mem_cons, List.not_mem_nil, or_false] at hc
          rcases hc with rfl | rfl
          · exact hn1.kid (by simp)
          · exact this.apart
        · rename_i _ _ h'; cases h'
          exact ⟨h, rfl, hn1⟩
        · rename_i h'; cases h'

theorem visitStmt_sim (hp : Par ms o L l) {sc : Scope} {a b : Cx} {n : Node} (h : Sim0 L l a b)
    (hn : Apart ms o n) : Side ms o L l (visitStmt env rec sc a n) (visitStmt env rec sc b n) := by
  unfold visitStmt
  rw [h.hasError]
  split
  · exact ⟨h, rfl, hn⟩
  · split
    · have := visitExpr_sim (env := env) (sc := sc) hrec hce hp h (hn.kid (List.mem_singleton.2 rfl)) ‹Bool›
      exact ⟨this.cx, by dsimp only; rw [this.node], hn.kids (by simpa using this.apart)⟩
    · exact vsVisitStmt_sim hrec hp (h.child _) hn

omit hrec in
/-- **Visits give the same results in contexts that correspond.** -/
theorem visit_sim (env : Env) (f : Nat) : RecSim ms o (visit env f) := by
  induction f with
  | zero =>
    rintro L l hp vk sc a b n ⟨r, l', rfl, hc⟩ hn
    exact ⟨⟨r, l', rfl, hc.markers, hc.root⟩, rfl, hn⟩
  | succ f ih =>
    intro L l hp vk sc a b n h hn
    have hw : ∀ vk, Side ms o L l (walk (visit env f vk sc) a n) (walk (visit env f vk sc) b n) :=
      fun vk => walk_sim (f := visit env f vk sc) (fun a b n h hn => ih L l hp _ _ _ _ _ h hn) h hn
    cases vk with
    | visitor =>
      show Side ms o L l (visitorStep env (visit env f) sc a n) (visitorStep env (visit env f) sc b n)
      unfold visitorStep
      rw [h.hasError]
      split
      · split
        · exact ⟨h, rfl, hn⟩
        · exact visitExpr_sim ih hce hp h hn false
      · split
        · exact visitStmt_sim ih hce hp h hn
        · split
          · exact visitArm_sim ih hp h hn
          · exact hw .visitor
    | dummy =>
      show Side ms o L l (dummyStep env (visit env f) sc a n) (dummyStep env (visit env f) sc b n)
      unfold dummyStep
      rw [h.hasError]
      split
      · split
        · exact ⟨h, rfl, hn⟩
        · exact vsVisitExpr_sim ih hp (h.child _) hn false
      · split
        · split
          · exact ⟨h, rfl, hn⟩
          · exact vsVisitStmt_sim ih hp (h.child _) hn
        · exact hw .dummy

end

end AutoEnums
