import Verif.Lemmas.Tidy

/-! # Helper attributes do not survive: successful runs -/

namespace AutoEnums

open Spec Judg

theorem Node.rebuild_kind (n : Node) (ks : List Node) : (n.rebuild ks).kind = n.kind := by
  cases n with | mk k as ks0 => unfold Node.rebuild; dsimp only; split <;> rfl

theorem Node.rebuild_attrs (n : Node) (ks : List Node) : (n.rebuild ks).rawAttrs = n.rawAttrs := by
  cases n with | mk k as ks0 => unfold Node.rebuild; dsimp only; split <;> rfl

theorem post_isExpr (vk : VK) (sc : Scope) (cx : Cx) (n : Node) (h : n.kind.isExpr = true)
    (hc : Clean (post vk sc cx n).1) : (post vk sc cx n).2.kind.isExpr = true := by
  unfold post at hc ⊢
  split
  · dsimp only at hc
    split
    · rename_i hm
      rw [if_pos hm] at hc
      rw [findRemoveAttrs_kind]
      rcases visitMarker_cases _ _ _ (findRemoveAttrs_keeps _ _ _ hc) with e | ⟨p, t, as, e, q, rfl, h1⟩
      · rw [e]; exact h
      · rw [h1]; rfl
    · exact h
  · exact h

theorem findRemoveAttrs_sub (sc : Scope) (cx : Cx) (n : Node) :
    (findRemoveAttrs sc cx n).2.rawAttrs.Sublist n.rawAttrs ∧ (findRemoveAttrs sc cx n).2.kids = n.kids := by
  cases hs : sc.foreign with
  | true => unfold findRemoveAttrs; rw [if_pos hs]; exact ⟨.refl _, rfl⟩
  | false =>
    cases n with
    | mk k as ks =>
      obtain ⟨as', h1, h2, _⟩ := findRemoveAttrs_form sc cx k as ks hs
      rw [h1]; exact ⟨h2, rfl⟩

theorem sub_length {n : Node} (h : n.kind.isOpaque = false) : n.sub = n.kids := by
  cases n with
  | mk k as ks =>
    simp only [Node.kind] at h
    simp [Node.sub, h, Node.kids]

theorem visitNested_top (sc : Scope) (cx : Cx) (n : Node) (a : Attr) :
    (visitNested sc cx n a).2.kind = n.kind ∧ (visitNested sc cx n a).2.rawAttrs = n.rawAttrs := by
  unfold visitNested
  dsimp only
  split
  · exact childExpr_top _ _
  · exact ⟨rfl, rfl⟩

theorem preSub_kids (vk : VK) (sc : Scope) (cx : Cx) (n : Node) (h : ∀ c ∈ n.kids, c.kind.isExpr = true) :
    ∀ c ∈ (preSub vk sc cx n).2.kids, c.kind.isExpr = true := by
  unfold preSub
  split
  · split
    · exact h
    · split
      · rename_i hf
        rw [← (findRemoveAttr_sub hf).2.2] at h
        simpa [Node.kids, (visitNested_top _ _ _ _).1] using h
      · rename_i hf
        rw [← (findRemoveAttr_sub hf).2.2] at h
        simpa [Node.kids, (visitNested_top _ _ _ _).1] using h
      · rename_i hf
        rw [← (findRemoveAttr_sub hf).2.2] at h
        simpa [Node.kids, (visitNested_top _ _ _ _).1] using h
      · rename_i hf
        rw [← (findRemoveAttr_sub hf).2.2] at h
        exact h
      · exact h
  · exact h

theorem preSub_shape (vk : VK) (sc : Scope) (cx : Cx) (n : Node) :
    (preSub vk sc cx n).2.kind = n.kind ∧ (preSub vk sc cx n).2.kids.length = n.kids.length ∧
      (preSub vk sc cx n).2.rawAttrs.Sublist n.rawAttrs := by
  unfold preSub
  split
  · split
    · exact ⟨rfl, rfl, .refl _⟩
    · split
      · rename_i h
        obtain ⟨h1, h2, h3⟩ := findRemoveAttr_sub h
        exact ⟨h2, by rw [← h3]; rfl, h1⟩
      · rename_i h
        obtain ⟨h1, h2, h3⟩ := findRemoveAttr_sub h
        exact ⟨h2, by rw [← h3]; rfl, h1⟩
      · rename_i h
        obtain ⟨h1, h2, h3⟩ := findRemoveAttr_sub h
        exact ⟨h2, by rw [← h3]; rfl, h1⟩
      · rename_i h
        obtain ⟨h1, h2, h3⟩ := findRemoveAttr_sub h
        exact ⟨h2, by rw [h3], h1⟩
      · exact ⟨rfl, rfl, .refl _⟩
  · exact ⟨rfl, rfl, .refl _⟩

/-- What a run keeps of the form of the code. -/
def Judg.Shape : Judg → Prop
  | one _ _ _ n _ n' => (n.kind.isExpr = true → n'.kind.isExpr = true) ∧
      (n.kind = .block → ∃ ks, n' = .mk .block n.rawAttrs ks)
  | many _ _ _ ns _ ns' => ns'.length = ns.length ∧
      ((∀ c ∈ ns, c.kind.isExpr = true) → ∀ c ∈ ns', c.kind.isExpr = true)
  | expr _ _ _ _ n _ n' => n.kind.isExpr = true → n'.kind.isExpr = true
  | part _ _ _ n _ n' => n'.kind = n.kind ∧ n'.rawAttrs.Sublist n.rawAttrs ∧
      n'.kids.length = n.kids.length ∧
      (n.kind.isOpaque = false → (∀ c ∈ n.kids, c.kind.isExpr = true) → ∀ c ∈ n'.kids, c.kind.isExpr = true)
  | onExpr _ _ n _ n' => n.kind.isExpr = true → n'.kind.isExpr = true
  | target _ n _ n' => n.kind.isExpr = true → n'.kind.isExpr = true
  | build _ n _ n' => n.kind.isExpr = true → n'.kind.isExpr = true
  | onStmt cx n _ n' => cx.args ≠ [] → ∀ p as ks, n = .mk (.sLocal p) as ks →
      ∃ p1 e els e', ks = e :: els ∧ n' = .mk (.sLocal p1) as (e' :: els)

theorem built_isExpr {cx : Cx} {e : Node} (h : e.kind.isExpr = true) : (built cx e).kind.isExpr = true := by
  unfold built; split
  · exact h
  · rfl

theorem not_dummy {cx : Cx} (h : cx.args ≠ []) : cx.isDummy = false := by
  unfold Cx.isDummy
  cases ha : cx.args with
  | nil => exact absurd ha h
  | cons => rfl

theorem Run.shape {env : Env} {j : Judg} (h : Run env j) : j.Shape := by
  induction h with
  | nil => exact ⟨rfl, fun h => h⟩
  | cons _ _ ih1 ih2 =>
    refine ⟨by rw [List.length_cons, List.length_cons, ih2.1], fun h c hc => ?_⟩
    rw [List.mem_cons] at hc
    rcases hc with rfl | hc
    · exact ih1.1 (h _ (by simp))
    · exact ih2.2 (fun c hc => h c (by simp [hc])) c hc
  | @plain cx vk sc n cx2 ks semi _ _ _ _ _ _ hc _ =>
    intro hk
    refine post_isExpr _ _ _ _ ?_ hc
    rw [Node.rebuild_kind]
    exact pre_isExpr _ _ _ _ hk
  | @child cx vk sc n attr n1 toks cx1 ch cx2 ks semi ch' n3 _ _ _ hf _ _ _ _ _ _ _ _ _ hc _ _ ih2 =>
    intro hk
    refine post_isExpr _ _ _ _ (ih2 ?_) hc
    rw [Node.rebuild_kind, findRemoveAttr_kind hf]
    exact pre_isExpr _ _ _ _ hk
  | @part cx vk sc n cx2 ks _ _ _ _ _ ih =>
    obtain ⟨h1, h2, h3⟩ := preSub_shape vk sc cx n
    have hp : ∀ m : Node, (postSub vk sc cx2 m).2.kind = m.kind ∧
        (postSub vk sc cx2 m).2.rawAttrs.Sublist m.rawAttrs ∧ (postSub vk sc cx2 m).2.kids = m.kids := by
      intro m
      unfold postSub
      split
      · exact ⟨findRemoveAttrs_kind _ _ _, findRemoveAttrs_sub _ _ _⟩
      · exact ⟨rfl, .refl _, rfl⟩
    obtain ⟨h4, h5, h6⟩ := hp ((preSub vk sc cx n).2.rebuild ks)
    refine ⟨?_, ?_, ?_, ?_⟩
    · rw [h4, Node.rebuild_kind, h1]
    · rw [Node.rebuild_attrs] at h5; exact h5.trans h3
    · rw [h6, ← h2]
      have ih : ks.length = (preSub vk sc cx n).2.sub.length := ih.1
      revert ih
      generalize (preSub vk sc cx n).2 = m
      cases m with
      | mk k as ks0 =>
        unfold Node.rebuild Node.sub
        dsimp only
        split
        · intro _; rfl
        · exact id
    · intro ho hall
      rw [h6]
      have ho' : (preSub vk sc cx n).2.kind.isOpaque = false := by rw [h1]; exact ho
      have : ((preSub vk sc cx n).2.rebuild ks).kids = ks := by
        revert ho'
        generalize (preSub vk sc cx n).2 = m
        cases m with
        | mk k as ks0 => intro ho'; simp only [Node.kind] at ho'; simp [Node.rebuild, ho', Node.kids]
      rw [this]
      refine ih.2 fun c hc => ?_
      rw [sub_length ho'] at hc
      exact preSub_kids vk sc cx n hall c hc
  | oneExpr hk _ ih =>
    refine ⟨ih, fun hb => ?_⟩
    rw [hb] at hk; cases hk
  | oneStmt _ _ => exact ⟨fun h => (by cases h), fun h => by cases h⟩
  | oneArm hk _ ih =>
    exact ⟨fun h => (by rw [hk] at h; cases h), fun h => by rw [hk] at h; cases h⟩
  | oneLocal hk _ _ _ =>
    exact ⟨fun h => (by rw [hk] at h; cases h), fun h => by rw [hk] at h; cases h⟩
  | oneLocalChild hk _ _ _ _ _ _ _ _ _ _ _ _ _ _ =>
    exact ⟨fun h => (by rw [hk] at h; cases h), fun h => by rw [hk] at h; cases h⟩
  | @oneBlock vk sc cx cx' ks n h1 h2 h3 _ ih =>
    refine ⟨fun h => (by rw [h1] at h; cases h), fun h => ?_⟩
    cases n with
    | mk k as ks0 => simp only [Node.kind] at h; subst h; exact ⟨ks, rfl⟩
  | oneInert hk _ _ _ =>
    exact ⟨id, fun h => by rw [h] at hk; cases hk⟩
  | exprDummy _ _ ih => exact ih.1
  | exprBuild _ _ ih => exact ih
  | target _ _ _ ih => exact fun h => ih.1 (by rw [(childExpr_top _ _).1]; exact h)
  | targetExit _ _ _ ih => exact fun h => ih.1 (by rw [(childExpr_top _ _).1]; exact h)
  | buildExpr _ _ _ ih => exact fun h => built_isExpr (ih h)
  | buildClosure _ _ _ _ => exact fun _ => built_isExpr rfl
  | stmtExpr _ _ => intro _ p as ks h; cases h
  | stmtLocalDummy h hd _ _ =>
    intro ha
    rw [not_dummy (by rw [(localAnalysis_kept h).args]; exact ha)] at hd
    cases hd
  | stmtLocal _ _ _ _ =>
    intro _ p as ks h
    cases h
    exact ⟨_, _, _, _, rfl, rfl⟩
  | stmtFnDummy _ _ _ _ => intro _ p as ks h; cases h
  | stmtFnExit _ _ _ _ _ _ _ => intro _ p as ks h; cases h
  | stmtFn _ _ _ _ _ _ _ _ => intro _ p as ks h; cases h
  | stmtInert _ h _ _ _ =>
    intro _ p as ks e
    subst e
    exact absurd rfl (h p)

theorem Spec.Neat.sub {k : Kind} {as as' : List Attr} {kids : List Kind} (h : Neat k as kids)
    (hs : as'.Sublist as) : Neat k as' kids :=
  ⟨fun hc s hm => Nat.le_trans (countNamed_sublist hs) (h.once hc s hm),
    fun hc a ha hn => ⟨(h.inner hc a (hs.subset ha) hn).traits, (h.inner hc a (hs.subset ha) hn).noArm,
      fun p hp b hb => (h.inner hc a (hs.subset ha) hn).alone p hp b (hs.subset hb),
      (h.inner hc a (hs.subset ha) hn).noElse⟩,
    fun i hi a ha => h.closure i hi a (hs.subset ha), h.stmt⟩

theorem Spec.Throughout.top {P : Kind → List Attr → List Kind → Prop} {n : Node} (h : Throughout P n) :
    P n.kind n.rawAttrs (n.kids.map (·.kind)) := by
  cases n with | mk k as ks => exact (throughout_mk.mp h).1

theorem Spec.Throughout.below {P : Kind → List Attr → List Kind → Prop} {n : Node} (h : Throughout P n) :
    ∀ c ∈ n.sub, Throughout P c := by
  cases n with
  | mk k as ks =>
    intro c hc
    unfold Node.sub at hc
    dsimp only at hc
    split at hc
    · simp at hc
    · rename_i hk
      exact (throughout_mk.mp h).2.2 (by rw [hidesCode_eq]; simpa using hk) c hc

/-- Put together again. -/
theorem throughout_rebuild {P Q R : Kind → List Attr → List Kind → Prop} {n : Node} {ks : List Node}
    (h : Throughout P n) (hk : ∀ c ∈ ks, Throughout Q c)
    (hP : ∀ kids, kids.length = n.kids.length →
      (n.kind.isOpaque = true → kids = n.kids.map (·.kind)) → R n.kind n.rawAttrs kids)
    (hl : n.kind.isOpaque = false → ks.length = n.kids.length) :
    (∃ ks', n.rebuild ks = .mk n.kind n.rawAttrs ks' ∧ R n.kind n.rawAttrs (ks'.map (·.kind)) ∧
      (macroCall n.kind = true → AllBareL ks') ∧ (n.kind.isOpaque = false → ∀ c ∈ ks', Throughout Q c)) := by
  cases n with
  | mk k as ks0 =>
    unfold Node.rebuild
    dsimp only
    split
    · rename_i ho
      exact ⟨ks0, rfl, hP _ (by simp [Node.kids]) (fun _ => rfl), (throughout_mk.mp h).2.1,
        fun hf => absurd ho (by rw [show k.isOpaque = false from hf]; simp)⟩
    · rename_i ho
      have ho' : k.isOpaque = false := by simpa using ho
      refine ⟨ks, rfl, hP _ (by simp [hl ho']) (fun hf => absurd hf (by rw [show (Node.mk k as ks0).kind = k from rfl, ho']; simp)), fun hm => ?_, fun _ => hk⟩
      cases k <;> first | (simp [macroCall, Node.kind] at hm; done) | (simp [Kind.isOpaque] at ho'; done)

theorem pre_neat (sc : Scope) (cx : Cx) (n : Node) (h : Throughout Neat n) :
    Throughout Neat (pre .visitor sc cx n).2 := by
  unfold pre
  dsimp only
  have hm := visitMode_throughout neat_lax sc (seen cx n) n h
  unfold nestedStep
  split
  · exact hm
  · split
    · rename_i a n' hf
      refine visitNested_throughout neat_lax _ _ _ _ ?_
      obtain ⟨h1, h2, h3⟩ := findRemoveAttr_sub hf
      revert h1 h2 h3 hm
      generalize (visitMode sc (seen cx n) n).2 = m
      intro hm h1 h2 h3
      cases n' with
      | mk k as ks =>
        cases m with
        | mk k0 as0 ks0 =>
          simp only [Node.kind, Node.kids, Node.rawAttrs] at h1 h2 h3
          subst h2 h3
          rw [throughout_mk] at hm ⊢
          exact ⟨hm.1.sub h1, hm.2⟩
    · exact hm

theorem pre_nested (sc : Scope) (cx : Cx) (n : Node) (h : Throughout Neat n) (hs : sc.foreign = false)
    (hk : carries (pre .visitor sc cx n).2.kind = true) :
    ∀ b ∈ (pre .visitor sc cx n).2.rawAttrs, named "nested" b = false := by
  unfold pre at hk ⊢
  dsimp only at hk ⊢
  rw [nestedStep_kind] at hk
  have hm := (visitMode_throughout neat_lax sc (seen cx n) n h).top
  unfold nestedStep
  rw [if_neg (by simp [hs])]
  split
  · rename_i a n' hf
    rw [(visitNested_top _ _ _ _).2]
    exact findRemoveAttr_gone hf (hm.once hk _ (by simp))
  · rename_i hf
    exact findRemoveAttr_absent hf (carries_hasAttrs hk)

theorem preSub_neat (sc : Scope) (cx : Cx) (n : Node) (h : Throughout Neat n) :
    Throughout Neat (preSub .visitor sc cx n).2 := by
  have hr : ∀ {n n' : Node} {a : Attr}, Throughout Neat n → n.findRemoveAttr NESTED = some (a, n') →
      Throughout Neat n' := by
    intro n n' a hm hf
    obtain ⟨h1, h2, h3⟩ := findRemoveAttr_sub hf
    cases n' with
    | mk k as ks =>
      cases n with
      | mk k0 as0 ks0 =>
        simp only [Node.kind, Node.kids, Node.rawAttrs] at h1 h2 h3
        subst h2 h3
        rw [throughout_mk] at hm ⊢
        exact ⟨hm.1.sub h1, hm.2⟩
  unfold preSub
  dsimp only
  split
  · exact h
  · split
    · rename_i hf
      have h1 := hr h hf
      rw [Throughout.open rfl] at h1 ⊢
      refine ⟨neat_lax.count _ _ _ _ (by simp) (by simp) h1.1, ?_⟩
      simp only [List.mem_singleton, forall_eq] at h1 ⊢
      exact visitNested_throughout neat_lax _ _ _ _ h1.2
    · rename_i hf
      have h1 := hr h hf
      rw [Throughout.open rfl] at h1 ⊢
      refine ⟨neat_lax.count _ _ _ _ (by simp) (by simp) h1.1, ?_⟩
      simp only [List.mem_cons, List.not_mem_nil, or_false, forall_eq_or_imp, forall_eq] at h1 ⊢
      exact ⟨h1.2.1, visitNested_throughout neat_lax _ _ _ _ h1.2.2⟩
    · rename_i hf
      have h1 := hr h hf
      rw [Throughout.open rfl] at h1 ⊢
      refine ⟨by simpa [(visitNested_top _ _ _ _).1] using h1.1, ?_⟩
      simp only [List.mem_cons, forall_eq_or_imp] at h1 ⊢
      exact ⟨visitNested_throughout neat_lax _ _ _ _ h1.2.1, h1.2.2⟩
    · rename_i hf; exact hr h hf
    · exact h

theorem preSub_nested (sc : Scope) (cx : Cx) (n : Node) (h : Throughout Neat n) (hs : sc.foreign = false)
    (hk : carries n.kind = true) : ∀ b ∈ (preSub .visitor sc cx n).2.rawAttrs, named "nested" b = false := by
  have hc := h.top.once hk "nested" (by simp)
  unfold preSub
  dsimp only
  rw [if_neg (by simp [hs])]
  split
  · rename_i hf
    have := findRemoveAttr_gone hf hc
    exact this
  · rename_i hf
    have := findRemoveAttr_gone hf hc
    exact this
  · rename_i hf
    have := findRemoveAttr_gone hf hc
    exact this
  · rename_i hf
    have := findRemoveAttr_gone hf hc
    exact this
  · rename_i hf
    have := findRemoveAttr_absent hf (carries_hasAttrs hk)
    exact this

/-- What is left of helper attributes. -/
def Left (foreign : Bool) : Kind → List Attr → List Kind → Prop := if foreign then Mid else Bare

/-- An attributed closure has no further helper attributes. -/
def ClosureBare (n : Node) : Prop := ∀ i as b, n = .mk (.eClosure i) as [b] → ∀ a ∈ as, helper a = false

/-- A target of the attribute that is not an expression. -/
def StmtTarget (n : Node) : Prop :=
  (∃ b as e, n = .mk (.sExpr b) as [e] ∧ e.kind.isExpr = true) ∨
  (∃ p as e els, n = .mk (.sLocal p) as (e :: els) ∧ e.kind.isExpr = true) ∨
  (∃ nm r as asb ss, n = .mk (.iFn nm r) as [.mk .block asb ss])

/-- What successful runs do to helper attributes. -/
def Judg.Tidies : Judg → Prop
  | one vk sc _ n _ n' => vk = .visitor → Throughout Neat n → Throughout (Left sc.foreign) n'
  | many vk sc _ ns _ ns' => vk = .visitor → (∀ c ∈ ns, Throughout Neat c) →
      ∀ c ∈ ns', Throughout (Left sc.foreign) c
  | expr vk sc _ _ n _ n' => vk = .visitor → n.kind.isExpr = true → Throughout Neat n →
      Throughout (Left sc.foreign) n'
  | part vk sc _ n _ n' => vk = .visitor → ((∃ p, n.kind = .arm p) ∨ ∃ p, n.kind = .sLocal p) →
      (∀ a ∈ n.rawAttrs, named "auto_enum" a = false) → Throughout Neat n → Throughout (Left sc.foreign) n'
  | onExpr _ cx n _ n' => cx.args ≠ [] → n.kind.isExpr = true → ClosureBare n → Throughout Neat n →
      Throughout Bare n'
  | target cx n _ n' => cx.args ≠ [] → Throughout Neat n → Throughout Bare n'
  | build cx n _ n' => cx.args ≠ [] → n.kind.isExpr = true → ClosureBare n → Throughout Neat n →
      Throughout Bare n'
  | onStmt cx n _ n' => cx.args ≠ [] → StmtTarget n → ClosureBare (targetOf n) →
      Throughout Neat (targetOf n) → Throughout Bare (targetOf n')

theorem left_mid {f : Bool} {n : Node} (h : Throughout (Left f) n) : Throughout Mid n := by
  cases f
  · exact Throughout.imp (fun _ _ _ h => Bare.mid h) n h
  · exact h

theorem bare_left {f : Bool} {n : Node} (h : Throughout Bare n) : Throughout (Left f) n := by
  cases f
  · exact h
  · exact Throughout.imp (fun _ _ _ h => Bare.mid h) n h

theorem stmtOk_isExpr {k : Kind} (h : k.isExpr = true) (kids : List Kind) : StmtOk k kids := by
  intro b hb; subst hb; cases h

theorem isExpr_kind {k : Kind} (h : k.isExpr = true) : isExpression k = true ∨ ∃ t, k = .eVerbatim t := by
  cases k <;> first | exact .inl rfl | exact .inr ⟨_, rfl⟩ | (simp [Kind.isExpr] at h)

theorem exprKind_isExpr {k : Kind} (h : ExprKind k) : k.isExpr = true := by
  rcases h with h | ⟨t, rfl⟩
  · cases k <;> first | rfl | (simp [isExpression] at h)
  · rfl

theorem built_bare {cx : Cx} {e : Node} (h : Throughout Bare e) (he : e.kind.isExpr = true) :
    Throughout Bare (built cx e) := by
  unfold built
  split
  · exact h
  · unfold buildExpr exprBlock tailS
    rw [Throughout.open rfl]
    refine ⟨bare_lax.nil _ _ (by simp), fun c hc => ?_⟩
    simp only [List.mem_cons, List.not_mem_nil, or_false] at hc
    rcases hc with rfl | rfl
    · unfold Cx.buildEnum
      rw [throughout_mk]
      exact ⟨bare_lax.nil _ _ (by simp), by simp [macroCall], by simp [hidesCode]⟩
    · rw [Throughout.open rfl]
      refine ⟨⟨by simp, fun _ _ => ⟨_, rfl, isExpr_kind he⟩⟩, fun c hc => ?_⟩
      simp only [List.mem_singleton] at hc
      subst hc; exact h

theorem not_exit {env : Env} {cx : Cx} (h : cx.args ≠ []) : cx.analysisExit env = false := by
  unfold Cx.analysisExit
  have : cx.args.isEmpty = false := by
    cases ha : cx.args with
    | nil => exact absurd ha h
    | cons => rfl
  split <;> simp [this]

theorem enter_foreign (sc : Scope) (n : Node) :
    (enter .visitor sc n).foreign = (n.anyAttr NAME || sc.foreign) := by
  unfold enter Scope.check
  dsimp only
  split <;> rename_i h
  all_goals (split <;> simp_all)

theorem makeChild_args {cx cx1 ch : Cx} {h : Nat} {toks : List Tok} (hm : cx.makeChild h toks = (cx1, .ok ch))
    (ht : ∀ m, ¬ IsArgs toks [] m) : ch.args ≠ [] := by
  unfold Cx.makeChild at hm
  simp only [Prod.mk.injEq] at hm
  obtain ⟨m, h1, _⟩ := new_args hm.2
  intro he
  rw [he, parseArgs_iff] at h1
  exact ht m h1

theorem anyAttr_carries {n : Node} (hk : carries n.kind = true) (s : String) :
    n.anyAttr s = n.rawAttrs.any (named s) := by
  cases n with
  | mk k as ks =>
    rw [any_named]
    unfold Node.anyAttr Node.attrs
    have h1 := carries_hasAttrs hk
    have h2 : ∀ b, k ≠ .sExpr b := by rintro b rfl; simp [Node.kind, carries, isExpression] at hk
    simp only [Node.kind] at h1
    split
    · rename_i h; cases h; exact absurd rfl (h2 _)
    · simp_all [Node.rawAttrs]

theorem Run.tidies {env : Env} {j : Judg} (h : Run env j) : j.Tidies := by
  induction h with
  | nil => intro _ _ c hc; simp at hc
  | cons h1 h2 ih1 ih2 =>
    intro hv hn c hc
    rw [List.mem_cons] at hc
    rcases hc with rfl | hc
    · exact ih1 hv (hn _ (by simp))
    · exact ih2 hv (fun c hc => hn c (by simp [hc])) c hc
  | @plain cx vk sc n cx2 ks semi _ _ hname hnone hr _ hc ih =>
    intro hv hk hn
    subst hv
    have hn1 := pre_neat (enter .visitor sc n) cx n hn
    have hk1 := pre_isExpr .visitor (enter .visitor sc n) cx n hk
    have hnested := pre_nested (enter .visitor sc n) cx n hn
    have hf : (enter .visitor sc n).foreign = sc.foreign := by
      rw [enter_foreign]
      cases hx : n.anyAttr NAME with
      | false => rfl
      | true =>
        obtain ⟨b, hb⟩ := hname hx
        rw [hb] at hk; cases hk
    have hks := ih rfl hn1.below
    have hl := Run.shape hr
    simp only [Judg.Shape] at hl
    rw [hf] at hks hnested
    revert hn1 hk1 hnone hks hl hc hnested
    generalize (pre .visitor (enter .visitor sc n) cx n).2 = m
    intro hnone hc hn1 hk1 hnested hks hl
    have hauto : carries m.kind = true → ∀ a ∈ m.rawAttrs, named "auto_enum" a = false :=
      fun hcar => findRemoveAttr_absent hnone (carries_hasAttrs hcar)
    have hl' : m.kind.isOpaque = false → ks.length = m.kids.length := fun ho => by
      rw [hl.1, sub_length ho]
    cases hfor : sc.foreign with
    | true =>
      rw [hfor] at hks hf
      obtain ⟨ks', e1, h1, h2, h3⟩ := throughout_rebuild (R := Mid) hn1 hks
        (fun kids _ _ => ⟨hn1.top.once, hauto, hn1.top.closure, stmtOk_isExpr hk1 _⟩) hl'
      refine post_foreign mid_lax hf ?_ hc
      rw [e1, throughout_mk, hidesCode_eq]
      exact ⟨h1, h2, h3⟩
    | false =>
      rw [hfor] at hks hf hnested
      obtain ⟨ks', e1, h1, h2, h3⟩ := throughout_rebuild (R := Nearly) hn1 hks
        (fun kids _ _ => ⟨fun hcar a ha => ⟨hauto hcar a ha, hnested rfl hcar a ha⟩,
          fun hcar => hn1.top.once hcar _ (by simp), stmtOk_isExpr hk1 _⟩) hl'
      rw [e1] at hc ⊢
      exact post_bare hf h1 h2 h3 hc
  | @child cx vk sc n attr n1 toks cx1 ch cx2 ks semi ch' n3 _ _ hname hfind hform hm _ _ hr _ hr2 _ _ hc _ ih1 ih2 =>
    intro hv hk hn
    subst hv
    have hn1 := pre_neat (enter .visitor sc n) cx n hn
    have hk1 := pre_isExpr .visitor (enter .visitor sc n) cx n hk
    have hf : (enter .visitor sc n).foreign = true := by rw [enter_foreign, hname]; rfl
    revert hn1 hk1 hfind hm
    generalize (pre .visitor (enter .visitor sc n) cx n).2 = m
    intro hfind hm hn1 hk1
    obtain ⟨ha0, ha1, _, l1, l2, he, he'⟩ := Node.findRemoveAttr_some hfind
    have hcar := isExpr_carries hk1 ha0
    have hmem : attr ∈ m.rawAttrs := by rw [he]; simp
    obtain ⟨⟨toks', hform', hno⟩, _, _, _⟩ := hn1.top.inner hcar attr hmem (by rw [named_iff]; exact ha1)
    rw [hform] at hform'; cases hform'
    have hsub : (l1 ++ l2).Sublist m.rawAttrs := by rw [he]; exact removed_sublist _ _ _
    have hn1' : Throughout Neat n1 := by
      subst he'
      cases m with
      | mk k as ks0 =>
        have := throughout_mk.mp hn1
        exact throughout_mk.mpr ⟨this.1.sub hsub, this.2⟩
    have hgone := findRemoveAttr_gone hfind (hn1.top.once hcar _ (by simp [NAME]))
    have hkind : n1.kind = m.kind := by subst he'; rfl
    have hks := ih1 rfl hn1'.below
    rw [hf] at hks
    have hl := Run.shape hr
    simp only [Judg.Shape] at hl
    obtain ⟨ks', e1, h1, h2, h3⟩ := throughout_rebuild (R := Mid) hn1' hks
      (fun kids _ _ => ⟨hn1'.top.once, fun _ => hgone, hn1'.top.closure,
        stmtOk_isExpr (by rw [hkind]; exact hk1) _⟩) (fun ho => by rw [hl.1, sub_length ho])
    have hmid : Throughout Mid (n1.rebuild ks) := by
      rw [e1, throughout_mk, hidesCode_eq]; exact ⟨h1, h2, h3⟩
    have hbare : Throughout Bare n3 := by
      refine ih2 (makeChild_args hm hno) (by rw [Node.rebuild_kind, hkind]; exact hk1) ?_
        (Throughout.imp (fun _ _ _ h => Mid.neat h) _ hmid)
      intro i as b hcl a ha
      have := hmid.top
      rw [hcl] at this
      have h4 := this.inner rfl a ha
      have h5 := this.closure i rfl a ha
      simp [helper, h4, h5.1, h5.2]
    exact bare_left (post_foreign bare_lax hf hbare hc)
  | @part cx vk sc n cx2 ks _ _ hr _ hc ih =>
    intro hv hk hauto hn
    subst hv
    have hn1 := preSub_neat sc cx n hn
    obtain ⟨s1, s2, s3⟩ := preSub_shape .visitor sc cx n
    have hcar : carries n.kind = true := by rcases hk with ⟨p, h⟩ | ⟨p, h⟩ <;> rw [h] <;> rfl
    have hnested := fun hs => preSub_nested sc cx n hn hs hcar
    have hks := ih rfl hn1.below
    have hl := Run.shape hr
    simp only [Judg.Shape] at hl
    have hauto' : ∀ a ∈ (preSub .visitor sc cx n).2.rawAttrs, named "auto_enum" a = false :=
      fun a ha => hauto a (s3.subset ha)
    have hk' : (∃ p, (preSub .visitor sc cx n).2.kind = .arm p) ∨ ∃ p, (preSub .visitor sc cx n).2.kind = .sLocal p := by
      rw [s1]; exact hk
    revert hn1 hnested hks hl hauto' hc hk'
    generalize (preSub .visitor sc cx n).2 = m
    intro hc hn1 hnested hks hl hauto' hk'
    have hst : ∀ kids, StmtOk m.kind kids := by
      intro kids b hb
      rcases hk' with ⟨p, h⟩ | ⟨p, h⟩ <;> rw [h] at hb <;> cases hb
    have hcl : ∀ i, m.kind ≠ .eClosure i := by
      intro i hb
      rcases hk' with ⟨p, h⟩ | ⟨p, h⟩ <;> rw [h] at hb <;> cases hb
    have hl' : m.kind.isOpaque = false → ks.length = m.kids.length := fun ho => by
      rw [hl.1, sub_length ho]
    unfold postSub
    dsimp only
    cases hfor : sc.foreign with
    | true =>
      rw [hfor] at hks
      obtain ⟨ks', e1, h1, h2, h3⟩ := throughout_rebuild (R := Mid) hn1 hks
        (fun kids _ _ => ⟨hn1.top.once, fun _ => hauto', fun i hi => absurd hi (hcl i), hst _⟩) hl'
      unfold findRemoveAttrs
      rw [if_pos hfor, e1, throughout_mk, hidesCode_eq]
      exact ⟨h1, h2, h3⟩
    | false =>
      rw [hfor] at hks hnested
      have hcar' : carries m.kind = true := by rcases hk' with ⟨p, h⟩ | ⟨p, h⟩ <;> rw [h] <;> rfl
      obtain ⟨ks', e1, h1, h2, h3⟩ := throughout_rebuild (R := Nearly) hn1 hks
        (fun kids _ _ => ⟨fun _ a ha => ⟨hauto' a ha, hnested rfl a ha⟩,
          fun hcar => hn1.top.once hcar _ (by simp), hst _⟩) hl'
      rw [e1]
      exact findRemoveAttrs_bare hfor h1 h2 h3
  | oneExpr hk _ ih => exact fun hv hn => ih hv hk hn
  | @oneStmt vk sc semi cx e cx' e' as hr ih =>
    intro hv hn
    rw [Throughout.open rfl] at hn
    obtain ⟨k', h1, h2⟩ := hn.1.stmt semi rfl
    have hk : e.kind.isExpr = true := by
      simp only [List.map_cons, List.map_nil, List.cons.injEq, and_true] at h1
      rw [h1]
      rcases h2 with h2 | ⟨t, rfl⟩
      · cases k' <;> first | rfl | (simp [isExpression] at h2)
      · rfl
    have := ih hv hk (hn.2 _ (by simp))
    have hk' := Run.shape hr hk
    rw [Throughout.open rfl]
    refine ⟨?_, by simpa using this⟩
    have hb : Bare (.sExpr semi) as ([e'].map (·.kind)) :=
      ⟨fun h => by simp [carries, isExpression] at h, fun _ _ => ⟨_, rfl, isExpr_kind hk'⟩⟩
    unfold Left
    split
    · exact hb.mid
    · exact hb
  | @oneArm vk sc cx n cx' n' p hk _ ih =>
    intro hv hn
    refine ih hv (.inl ⟨p, hk⟩) ?_ hn
    intro a ha
    cases hx : named "auto_enum" a with
    | false => rfl
    | true => exact absurd hk ((hn.top.inner (by rw [hk]; rfl) a ha hx).noArm p)
  | @oneLocal vk sc cx n cx' n' p hk hno _ ih =>
    intro hv hn
    refine ih hv (.inr ⟨p, hk⟩) ?_ hn
    rw [anyAttr_carries (by rw [hk]; rfl), List.any_eq_false] at hno
    intro a ha
    simpa [NAME] using hno a ha
  | @oneLocalChild cx attr n1 toks n cx1 ch vk sc cx2 n2 ch' n3 p hk hname _ hfind htoks hm _ _ hr1 _ hr2 _ _ _ ih1 ih2 =>
    intro hv hn
    subst hv
    obtain ⟨ha0, ha1, _, l1, l2, he, he'⟩ := Node.findRemoveAttr_some hfind
    have hcar : carries n.kind = true := by rw [hk]; rfl
    have hmem : attr ∈ n.rawAttrs := by rw [he]; simp
    obtain ⟨⟨toks', hform', hno⟩, _, halone, hlen⟩ := hn.top.inner hcar attr hmem (by rw [named_iff]; exact ha1)
    rw [hform'] at htoks
    simp only [childToks, Option.some.injEq] at htoks
    subst htoks
    have hsub : (l1 ++ l2).Sublist n.rawAttrs := by rw [he]; exact removed_sublist _ _ _
    have hgone := findRemoveAttr_gone hfind (hn.top.once hcar _ (by simp [NAME]))
    have hn1' : Throughout Neat n1 := by
      subst he'
      cases n with
      | mk k as ks0 =>
        have := throughout_mk.mp hn
        exact throughout_mk.mpr ⟨this.1.sub hsub, this.2⟩
    have hkind : n1.kind = .sLocal p := by subst he'; exact hk
    have hmid := left_mid (ih1 rfl (.inr ⟨p, hkind⟩) hgone hn1')
    obtain ⟨s1, s2, s3, s4⟩ := Run.shape hr1
    have hargs := makeChild_args hm hno
    have hlen2 : n2.kids.length ≤ 1 := by
      rw [s3, (findRemoveAttr_sub hfind).2.2]
      simpa using (hlen p hk).1
    have hexpr : ∀ c ∈ n2.kids, c.kind.isExpr = true := by
      refine s4 (by rw [hkind]; rfl) ?_
      rw [(findRemoveAttr_sub hfind).2.2]
      intro c hc
      exact exprKind_isExpr ((hlen p hk).2 c.kind (List.mem_map_of_mem hc))
    cases n2 with
    | mk k2 as2 ks2 =>
      simp only [Node.kind, Node.kids, Node.rawAttrs] at s1 s2 hlen2
      have s1' : k2 = .sLocal p := by rw [s1]; exact hkind
      subst s1'
      obtain ⟨p1, e, els, e', h1, h2⟩ := Run.shape hr2 hargs p as2 ks2 rfl
      subst h1 h2
      have hels : els = [] := by
        cases els with
        | nil => rfl
        | cons => simp at hlen2
      subst hels
      rw [Throughout.open rfl] at hmid
      have he := hmid.2 e (by simp)
      have hbare := ih2 hargs (.inr (.inl ⟨_, _, _, _, rfl, hexpr e (by simp [Node.kids])⟩)) (by
        intro i as b hcl a ha
        rw [show targetOf (.mk (.sLocal p) as2 [e]) = e from rfl] at hcl
        have := he.top
        rw [hcl] at this
        have h4 := this.inner rfl a ha
        have h5 := this.closure i rfl a ha
        simp [helper, h4, h5.1, h5.2]) (Throughout.imp (fun _ _ _ h => Mid.neat h) _ he)
      rw [show targetOf (.mk (.sLocal p1) as2 [e']) = e' from rfl] at hbare
      apply bare_left
      rw [Throughout.open rfl]
      refine ⟨⟨fun _ a ha => ?_, by simp [StmtOk]⟩, by simpa using hbare⟩
      have h6 : a ∈ n1.rawAttrs := s2.subset ha
      have h7 := halone p hk a ((findRemoveAttr_sub hfind).1.subset h6)
      have h8 := hgone a h6
      simp only [NAME] at h8
      simp [helper, h7.1, h7.2, h8]
  | @oneBlock vk sc cx cx' ks n h1 h2 h3 hr ih =>
    intro hv hn
    have hks := ih hv hn.below
    have hl := Run.shape hr
    simp only [Judg.Shape] at hl
    have hb : ∀ kids, Bare n.kind n.rawAttrs kids := by
      intro kids
      refine ⟨fun hcar => ?_, fun b hb => ?_⟩
      · exfalso
        cases n with
        | mk k as ks0 =>
          simp only [Node.kind] at h1 h2 h3 hcar
          cases k <;> first
            | (simp [Kind.isExpr] at h1; done) | (simp [Kind.isStmt] at h2; done)
            | exact absurd rfl (h3 _) | (simp [carries, isExpression] at hcar; done)
      · rw [hb] at h2; cases h2
    obtain ⟨ks', e1, h4, h5, h6⟩ := throughout_rebuild (R := Left sc.foreign) hn hks
      (fun kids _ _ => by unfold Left; split <;> first | exact (hb _).mid | exact hb _) (fun ho => by rw [hl.1, sub_length ho])
    rw [e1, throughout_mk, hidesCode_eq]
    exact ⟨h4, h5, h6⟩
  | @oneInert n cx vk sc h1 h2 h3 _ =>
    intro hv hn
    cases n with
    | mk k as ks =>
      simp only [Node.kind] at h1 h2
      rw [throughout_mk] at hn ⊢
      have hb : Bare k as (ks.map (·.kind)) := by
        refine ⟨fun hcar => ?_, hn.1.stmt⟩
        exfalso
        cases k <;> first
          | (simp [Kind.isStmt] at h1; done) | exact absurd rfl (h2 _) | (simp [carries, isExpression] at hcar; done)
      refine ⟨by unfold Left; split <;> first | exact hb.mid | exact hb, hn.2.1, fun ho => ?_⟩
      exfalso
      cases k <;> first
        | (simp [Kind.isStmt] at h1; done) | exact absurd rfl (h2 _) | (simp [hidesCode] at ho; done) | skip
      obtain ⟨k', h4, _⟩ := hn.1.stmt _ rfl
      obtain ⟨e, rfl⟩ : ∃ e, ks = [e] := by
        rw [← List.length_eq_one_iff]
        simpa using congrArg List.length h4
      exact h3 _ _ _ rfl
  | @exprDummy semi e _ _ cx hd _ _ =>
    intro ha
    rw [not_dummy (by rw [(semi_kept cx semi).args]; exact ha)] at hd
    cases hd
  | @exprBuild semi e _ _ cx _ _ ih =>
    intro ha
    exact ih (by rw [(semi_kept cx semi).args]; exact ha)
  | target _ _ _ ih =>
    intro ha hn
    exact ih rfl ((childExpr_Wr _ _).throughout neat_lax hn)
  | targetExit hx _ _ _ =>
    intro ha
    rw [not_exit (by rw [(childExpr_same _ _).args]; exact ha)] at hx
    cases hx
  | buildExpr _ hr _ ih =>
    intro ha hk _ hn
    exact built_bare (ih ha hn) (Run.shape hr hk)
  | @buildClosure cx b _ _ i as _ hr _ ih =>
    intro ha hk hcl hn
    refine built_bare ?_ rfl
    rw [Throughout.open rfl] at hn ⊢
    refine ⟨⟨fun _ => hcl _ _ _ rfl, by simp [StmtOk]⟩, ?_⟩
    simp only [List.mem_singleton, forall_eq] at hn ⊢
    exact ih ha hn.2
  | stmtExpr _ ih =>
    intro ha ht hcl hn
    rcases ht with ⟨b, as, e, h1, h2⟩ | ⟨_, _, _, _, h1, _⟩ | ⟨_, _, _, _, _, h1⟩ <;> cases h1
    exact ih ha h2 hcl hn
  | stmtLocalDummy h hd _ _ =>
    intro ha
    rw [not_dummy (by rw [(localAnalysis_kept h).args]; exact ha)] at hd
    cases hd
  | stmtLocal h _ _ ih =>
    intro ha ht hcl hn
    rcases ht with ⟨b, as, e, h1, _⟩ | ⟨_, _, _, _, h1, h2⟩ | ⟨_, _, _, _, _, h1⟩ <;> cases h1
    exact ih (by rw [(localAnalysis_kept h).args]; exact ha) h2 hcl hn
  | stmtFnDummy h hd _ _ =>
    intro ha
    rw [not_dummy (by rw [(fnAnalysis_kept h).args]; exact ha)] at hd
    cases hd
  | stmtFnExit h _ _ hx _ _ _ =>
    intro ha
    rw [not_exit (by rw [(childLast_same _ _).args, (fnAnalysis_kept h).args]; exact ha)] at hx
    cases hx
  | @stmtFn cx ret asb ss cx1 cx' b' name as h _ _ _ _ hr _ ih =>
    intro ha ht hcl hn
    have hb : ∀ P kids, Lax P → P .block asb kids := fun P kids hP =>
      hP.bare _ _ _ ⟨fun h => by simp [carries, isExpression] at h, by simp [StmtOk]⟩
    have hn' : Throughout Neat (.mk .block asb ss) := by
      rw [show targetOf (.mk (.iFn name ret) as [.mk .block asb ss]) = .mk (.eBlock none) [] ss from rfl,
        Throughout.open rfl] at hn
      rw [Throughout.open rfl]
      exact ⟨hb _ _ neat_lax, hn.2⟩
    have hw := (childLast_Wr (k := .block) rfl asb ss cx1).throughout neat_lax hn'
    have hbare := ih rfl (by simpa using hw) b' (by simp)
    obtain ⟨ks', hform⟩ : ∃ ks', b' = .mk .block asb ks' := by
      cases hr with
      | cons h1 h2 => exact (Run.shape h1).2 rfl
    subst hform
    have hks : ∀ c ∈ ks', Throughout Bare c := ((Throughout.open rfl).mp hbare).2
    unfold builtFn
    split
    · show Throughout Bare (.mk (.eBlock none) [] ks')
      rw [Throughout.open rfl]
      exact ⟨bare_lax.nil _ _ (by simp), hks⟩
    · show Throughout Bare (.mk (.eBlock none) [] (cx'.buildEnum :: ks'))
      rw [Throughout.open rfl]
      refine ⟨bare_lax.nil _ _ (by simp), fun c hc => ?_⟩
      rw [List.mem_cons] at hc
      rcases hc with rfl | hc
      · unfold Cx.buildEnum
        rw [throughout_mk]
        exact ⟨bare_lax.nil _ _ (by simp), by simp [macroCall], by simp [hidesCode]⟩
      · exact hks c hc
  | @stmtInert n cx h1 h2 h3 h4 _ =>
    intro ha ht
    exfalso
    rcases ht with ⟨b, as, e, rfl, _⟩ | ⟨_, _, _, _, rfl, _⟩ | ⟨_, _, _, _, _, rfl⟩
    · exact h3 _ _ _ rfl
    · exact h2 _ rfl
    · exact h4 _ _ _ _ _ rfl

end AutoEnums
