import Verif.Spec.Settled
import Verif.Lemmas.TidyRun

/-! # No `auto_enum` attribute is left where it would be looked at -/

namespace AutoEnums

open Spec Judg

theorem looked_carries {k : Kind} (h : looked k = true) : carries k = true := by
  cases k <;> first | rfl | exact h

theorem aside_looked {k : Kind} (h : aside k = true) : looked k = true := by
  cases k <;> first | rfl | cases h

theorem isExpr_looked {k : Kind} (h : k.isExpr = true) (ha : k.hasAttrs = true) : looked k = true := by
  cases k <;> first | rfl | (simp [Kind.isExpr, Kind.hasAttrs] at h ha)

theorem Spec.Settled.once {k : Kind} {as : List Attr} {i : List Kind} (h : Settled k as i) : Once k as i := by
  refine ⟨fun hl => ?_, ?_, h.stmt⟩
  · rw [countNamed_zero (h.none (aside_looked hl))]; exact Nat.zero_le _
  · rintro p rfl ⟨a, ha, hn⟩
    rw [h.none rfl a ha] at hn; cases hn

theorem Spec.Bare.settled {k : Kind} {as : List Attr} {i : List Kind} (h : Bare k as i) : Settled k as i :=
  ⟨fun hl a ha => (helper_false (h.none (looked_carries hl) a ha)).1, h.stmt⟩

theorem settled_lax : Lax Settled := by
  refine ⟨fun k i h => ⟨by simp, fun b hb => absurd hb (h b)⟩,
    fun _ => ⟨by simp, fun _ _ => ⟨_, rfl, .inl rfl⟩⟩, ⟨by simp, fun _ _ => ⟨_, rfl, .inl rfl⟩⟩,
    fun k as i j h _ hp => ⟨hp.1, fun b hb => absurd hb (h b)⟩,
    fun as i j h => ⟨fun _ => h.1 rfl, by simp [StmtOk]⟩,
    fun _ _ as i j h => ⟨fun _ => h.1 rfl, by simp [StmtOk]⟩, fun _ _ _ h => h.settled⟩

theorem once_lax : Lax Once := by
  refine ⟨fun k i h => ⟨by simp [countNamed], by simp, fun b hb => absurd hb (h b)⟩,
    fun _ => ⟨by simp [countNamed], by simp, fun _ _ => ⟨_, rfl, .inl rfl⟩⟩,
    ⟨by simp [countNamed], by simp, fun _ _ => ⟨_, rfl, .inl rfl⟩⟩,
    fun k as i j h h' hp => ⟨hp.1, fun p he => absurd he (h' p), fun b hb => absurd hb (h b)⟩,
    fun as i j h => ⟨by simp [aside], by simp, by simp [StmtOk]⟩,
    fun _ _ as i j h => ⟨by simp [aside], by simp, by simp [StmtOk]⟩, fun _ _ _ h => h.settled.once⟩

theorem settled_once {n : Node} (h : Throughout Settled n) : Throughout Once n :=
  Throughout.imp (fun _ _ _ h => h.once) n h

theorem Spec.Once.sub {k : Kind} {as as' : List Attr} {kids : List Kind} (h : Once k as kids)
    (hs : as'.Sublist as) : Once k as' kids :=
  ⟨fun hc => Nat.le_trans (countNamed_sublist hs) (h.once hc),
    fun p hp ⟨a, ha, hn⟩ => h.init p hp ⟨a, hs.subset ha, hn⟩, h.stmt⟩

theorem Spec.Settled.sub {k : Kind} {as as' : List Attr} {kids : List Kind} (h : Settled k as kids)
    (hs : as'.Sublist as) : Settled k as' kids :=
  ⟨fun hc a ha => h.none hc a (hs.subset ha), h.stmt⟩

theorem once_removed {n n' : Node} {a : Attr} {s : String} (hm : Throughout Once n)
    (hf : n.findRemoveAttr s = some (a, n')) : Throughout Once n' := by
  obtain ⟨h1, h2, h3⟩ := findRemoveAttr_sub hf
  cases n' with
  | mk k as ks =>
    cases n with
    | mk k0 as0 ks0 =>
      simp only [Node.kind, Node.kids, Node.rawAttrs] at h1 h2 h3
      subst h2 h3
      rw [throughout_mk] at hm ⊢
      exact ⟨hm.1.sub h1, hm.2⟩

theorem pre_once (vk : VK) (sc : Scope) (cx : Cx) (n : Node) (h : Throughout Once n) :
    Throughout Once (pre vk sc cx n).2 := by
  cases vk with
  | dummy => exact h
  | visitor =>
    unfold pre
    dsimp only
    have hm := visitMode_throughout once_lax sc (seen cx n) n h
    unfold nestedStep
    split
    · exact hm
    · split
      · rename_i a n' hf
        exact visitNested_throughout once_lax _ _ _ _ (once_removed hm hf)
      · exact hm

theorem preSub_once (vk : VK) (sc : Scope) (cx : Cx) (n : Node) (h : Throughout Once n) :
    Throughout Once (preSub vk sc cx n).2 := by
  cases vk with
  | dummy => exact h
  | visitor =>
    unfold preSub
    dsimp only
    split
    · exact h
    · split
      · rename_i hf
        have h1 := once_removed h hf
        rw [Throughout.open rfl] at h1 ⊢
        refine ⟨once_lax.count _ _ _ _ (by simp) (by simp) h1.1, ?_⟩
        simp only [List.mem_singleton, forall_eq] at h1 ⊢
        exact visitNested_throughout once_lax _ _ _ _ h1.2
      · rename_i hf
        have h1 := once_removed h hf
        rw [Throughout.open rfl] at h1 ⊢
        refine ⟨once_lax.count _ _ _ _ (by simp) (by simp) h1.1, ?_⟩
        simp only [List.mem_cons, List.not_mem_nil, or_false, forall_eq_or_imp, forall_eq] at h1 ⊢
        exact ⟨h1.2.1, visitNested_throughout once_lax _ _ _ _ h1.2.2⟩
      · rename_i hf
        have h1 := once_removed h hf
        rw [Throughout.open rfl] at h1 ⊢
        refine ⟨by simpa [(visitNested_top _ _ _ _).1] using h1.1, ?_⟩
        simp only [List.mem_cons, forall_eq_or_imp] at h1 ⊢
        exact ⟨visitNested_throughout once_lax _ _ _ _ h1.2.1, h1.2.2⟩
      · rename_i hf; exact once_removed h hf
      · exact h

theorem findRemoveAttrs_settled {sc : Scope} {cx : Cx} {n : Node} (h : Throughout Settled n) :
    Throughout Settled (findRemoveAttrs sc cx n).2 := by
  obtain ⟨h1, h2⟩ := findRemoveAttrs_sub sc cx n
  have h3 := findRemoveAttrs_kind sc cx n
  revert h1 h2 h3
  generalize (findRemoveAttrs sc cx n).2 = m
  intro h1 h2 h3
  cases n with
  | mk k as ks =>
    cases m with
    | mk k0 as0 ks0 =>
      simp only [Node.kind, Node.kids, Node.rawAttrs] at h1 h2 h3
      subst h2 h3
      rw [throughout_mk] at h ⊢
      exact ⟨h.1.sub h1, h.2⟩

theorem post_settled {vk : VK} {sc : Scope} {cx : Cx} {n : Node} (h : Throughout Settled n)
    (hc : Clean (post vk sc cx n).1) : Throughout Settled (post vk sc cx n).2 := by
  cases vk with
  | dummy => exact h
  | visitor =>
    unfold post at hc ⊢
    dsimp only at hc ⊢
    split
    · rename_i hm
      rw [if_pos hm] at hc
      exact findRemoveAttrs_settled (visitMarker_throughout settled_lax _ _ _ (findRemoveAttrs_keeps _ _ _ hc) h)
    · exact h

theorem built_settled {cx : Cx} {e : Node} (h : Throughout Settled e) (he : e.kind.isExpr = true) :
    Throughout Settled (built cx e) := by
  unfold built
  split
  · exact h
  · unfold buildExpr exprBlock tailS
    rw [Throughout.open rfl]
    refine ⟨settled_lax.nil _ _ (by simp), fun c hc => ?_⟩
    simp only [List.mem_cons, List.not_mem_nil, or_false] at hc
    rcases hc with rfl | rfl
    · unfold Cx.buildEnum
      rw [throughout_mk]
      exact ⟨settled_lax.nil _ _ (by simp), by simp [macroCall], by simp [hidesCode]⟩
    · rw [Throughout.open rfl]
      refine ⟨⟨by simp, fun _ _ => ⟨_, rfl, isExpr_kind he⟩⟩, fun c hc => ?_⟩
      simp only [List.mem_singleton] at hc
      subst hc; exact h

/-- An attributed closure has no further `auto_enum` attribute. -/
def ClosureOnce (n : Node) : Prop :=
  ∀ i as b, n = .mk (.eClosure i) as [b] → ∀ a ∈ as, named "auto_enum" a = false

theorem settled_closure {n : Node} (h : Throughout Settled n) : ClosureOnce n := by
  rintro i as b rfl
  exact h.top.none rfl

/-- A statement, `let` or function that can be annotated. -/
def Annotated (n : Node) : Prop :=
  (∃ b as e, n = .mk (.sExpr b) as [e] ∧ e.kind.isExpr = true) ∨
  (∃ p as ks, n = .mk (.sLocal p) as ks ∧ ∀ c ∈ ks.head?, c.kind.isExpr = true) ∨
  (∃ nm r as asb ss, n = .mk (.iFn nm r) as [.mk .block asb ss])

/-- What successful runs do to `auto_enum` attributes. -/
def Judg.Settles : Judg → Prop
  | one _ _ _ n _ n' => Throughout Once n → Throughout Settled n'
  | many _ _ _ ns _ ns' => (∀ c ∈ ns, Throughout Once c) → ∀ c ∈ ns', Throughout Settled c
  | expr _ _ _ _ n _ n' => n.kind.isExpr = true → Throughout Once n → Throughout Settled n'
  | part _ _ _ n _ n' => ((∃ p, n.kind = .arm p) ∨ ∃ p, n.kind = .sLocal p) →
      (looked n.kind = true → ∀ a ∈ n.rawAttrs, named "auto_enum" a = false) → Throughout Once n →
      Throughout Settled n'
  | onExpr _ _ n _ n' => n.kind.isExpr = true → ClosureOnce n → Throughout Once n → Throughout Settled n'
  | target _ n _ n' => Throughout Once n → Throughout Settled n'
  | build _ n _ n' => n.kind.isExpr = true → ClosureOnce n → Throughout Once n → Throughout Settled n'
  | onStmt _ n _ n' => Annotated n → ClosureOnce (targetOf n) → (∀ c ∈ n.kids, Throughout Once c) →
      (∀ p, n.kind = .sLocal p → ∀ c ∈ n.kids.tail, Throughout Settled c) →
      (∀ c ∈ n'.kids, Throughout Settled c) ∧ n'.rawAttrs = n.rawAttrs ∧
        ∀ p, n.kind = .sLocal p → ∃ p', n'.kind = .sLocal p'

end AutoEnums
