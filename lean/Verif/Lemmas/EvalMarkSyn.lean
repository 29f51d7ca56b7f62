import Verif.Lemmas.EvalMark
import Verif.Lemmas.EvalDiverge

/-! # Lemmas: a syntactic description of consistently wrapped code -/

namespace AutoEnums

open Spec

section

variable {B S : Type} {M : Machine B S}

open Eval

/-! ## Where `return`s come from -/

/-- If a `return` is the outcome, then `P`. -/
def Rets (P : Prop) (r : Res B S) : Prop := ∀ v s, r = some (.ret v, s) → P

/-- The same for every run. -/
def RetsD (P : Prop) (d : Den B S) : Prop := ∀ x s, Rets P (d x s)

variable {P : Prop}

theorem rets_val {v : Value B} {s : S} : Rets P (some (.val v, s)) := by intro u s' h; cases h
theorem rets_panic {s : S} : Rets P (B := B) (some (.panic, s)) := by intro u s' h; cases h
theorem rets_miss {s : S} : Rets P (B := B) (some (.miss, s)) := by intro u s' h; cases h
theorem rets_none : Rets P (B := B) (S := S) none := by intro u s' h; cases h

theorem rets_andThen {r : Res B S} {g : Value B → S → Res B S} (h : Rets P r)
    (hg : ∀ v s, Rets P (g v s)) : Rets P (andThen r g) := by
  unfold andThen
  split
  · exact hg _ _
  · exact h

theorem rets_kid {ds : List (Den B S)} (h : ∀ d ∈ ds, RetsD P d) (i : Nat) (s : S) :
    Rets P (kid M ds i s) := by
  unfold kid
  split
  · rename_i d hd
    exact h d (List.mem_of_getElem? hd) _ _
  · exact rets_panic

theorem rets_discard {r : Res B S} (h : Rets P r) : Rets P (discard M r) :=
  rets_andThen h fun _ _ => rets_val

theorem rets_stmts : ∀ {ds : List (Den B S)}, (∀ d ∈ ds, RetsD P d) → ∀ s, Rets P (stmts M ds s)
  | [], _, s => rets_val
  | [d], h, s => h d (by simp) _ _
  | d :: d' :: ds, h, s => by
    unfold stmts
    exact rets_andThen (h d (by simp) _ _) fun _ s => rets_stmts (fun x hx => h x (by simp [hx])) s

theorem rets_labelled {l : Option String} {r : Res B S} (h : Rets P r) : Rets P (labelled l r) := by
  unfold labelled
  split
  · split
    · exact rets_val
    · exact h
  · exact h

theorem rets_arms {v : Value B} : ∀ {ds : List (Den B S)}, (∀ d ∈ ds, RetsD P d) →
    ∀ s, Rets P (arms v ds s)
  | [], _, s => rets_panic
  | d :: ds, h, s => by
    unfold arms
    split
    · exact rets_arms (fun x hx => h x (by simp [hx])) _
    · exact h d (by simp) _ _

theorem rets_arm {p : String} {ds : List (Den B S)} (h : ∀ d ∈ ds, RetsD P d) (v : Value B) (s : S) :
    Rets P (arm M p ds v s) := by
  unfold arm
  dsimp only
  split
  · split
    · exact h _ (by simp) _ _
    · refine rets_andThen (h _ (by simp) _ _) fun c s => ?_
      split
      · exact h _ (by simp) _ _
      · exact rets_miss
    · exact rets_panic
  · exact rets_miss

theorem rets_round {l : Option String} {r : Res B S} {next : S → Res B S}
    {leave : Value B → S → Res B S} (h : Rets P r) (hn : ∀ s, Rets P (next s))
    (hl : ∀ v s, Rets P (leave v s)) : Rets P (round l r next leave) := by
  unfold round
  split
  · exact hn _
  · split
    · exact hn _
    · intro u s' h; cases h
  · split
    · exact hl _ _
    · exact h
  · exact h

theorem rets_loop {l : Option String} {d : S → Res B S} (h : ∀ s, Rets P (d s)) (f : Nat) :
    ∀ s, Rets P (loop l d f s) := by
  induction f with
  | zero => intro s; exact rets_none
  | succ f ih =>
    intro s
    unfold loop
    exact rets_round (h s) ih fun _ _ => rets_val

theorem rets_while {l : Option String} {c d : S → Res B S} (hc : ∀ s, Rets P (c s))
    (h : ∀ s, Rets P (d s)) (f : Nat) : ∀ s, Rets P (while_ M l c d f s) := by
  induction f with
  | zero => intro s; exact rets_none
  | succ f ih =>
    intro s
    unfold while_
    dsimp only
    split
    · split
      · exact rets_round (h _) ih fun _ _ => rets_val
      · exact rets_val
    · exact rets_round (hc s) ih fun _ _ => rets_val

theorem rets_for {k : Kind} {l : Option String} {v : Value B} {d : S → Res B S}
    (h : ∀ s, Rets P (d s)) (f : Nat) : ∀ s, Rets P (for_ M k l v d f s) := by
  induction f with
  | zero => intro s; exact rets_none
  | succ f ih =>
    intro s
    unfold for_
    split
    · exact rets_round (h _) ih fun _ _ => rets_val
    · exact rets_val
    · exact rets_panic

theorem rets_other {k : Kind} {ds : List (Den B S)} (h : ∀ d ∈ ds, RetsD P d) (f : Nat) :
    ∀ us s, Rets P (other M k ds f us s) := by
  induction f with
  | zero => intro _ s; exact rets_none
  | succ f ih =>
    intro us s
    unfold other
    split
    · exact rets_andThen (rets_kid h _ _) fun v s => ih _ _
    · exact rets_val
    · exact rets_panic

theorem rets_freeze {k : Kind} {ks : List Node} {s : S} : Rets P (freeze M k ks s) := by
  unfold freeze
  split
  · exact rets_val
  · exact rets_panic

theorem rets_node {en : Ident} {f : Nat} {k : Kind} {ks : List Node} {ds : List (Den B S)}
    (h : hidesCode k = false → ∀ d ∈ ds, RetsD P d) (hb : k = .eReturn → P) :
    RetsD P (node M en f k ks ds) := by
  intro x s
  by_cases hoth : isOther k = true
  · rw [node_other hoth]
    exact rets_other (h (by cases k <;> first | rfl | cases hoth)) f [] s
  cases k <;> try (exact absurd rfl hoth)
  all_goals simp only [node]
  case eAsync => exact rets_freeze
  case eClosure => exact rets_freeze
  case eVerbatim => exact rets_freeze
  case eMacro => split; exact rets_panic; exact rets_freeze
  case sMacro => split; exact rets_panic; exact rets_freeze
  case sItem => exact rets_val
  case eContinue => intro u s' h; cases h
  case eCall =>
    split
    · exact rets_andThen (rets_kid (h rfl) _ _) fun _ _ => rets_val
    · exact rets_other (h rfl) f [] s
  case ePath => split; exact rets_val; exact rets_other (h rfl) f [] s
  case eTuple => split; exact rets_val; exact rets_other (h rfl) f [] s
  case eTry =>
    refine rets_andThen (rets_kid (h rfl) _ _) fun v s => ?_
    split
    · intro u s' h; cases h
    · split
      · exact rets_val
      · exact rets_panic
      · exact rets_panic
  case eTryBlock =>
    have := rets_stmts (M := M) (h rfl) s
    split
    · exact rets_val
    · exact rets_val
    · exact this
  case eBreak =>
    split
    · intro u s' h; cases h
    · exact rets_andThen (rets_kid (h rfl) _ _) fun v s => by intro u s' h; cases h
  case eReturn =>
    have hl : ∀ (v : Value B) (s : S), Rets P (some (.ret v, s)) := by
      intro v s u s' h; exact hb rfl
    split
    · exact hl _ _
    · exact rets_andThen (rets_kid (h rfl) _ _) fun v s => hl _ _
  case eConst => exact rets_stmts (h rfl) s
  case block => exact rets_stmts (h rfl) s
  case eUnsafe => exact rets_stmts (h rfl) s
  case eGroup => exact rets_kid (h rfl) _ _
  case eParen => exact rets_kid (h rfl) _ _
  case sExpr => split; exact rets_discard (rets_kid (h rfl) _ _); exact rets_kid (h rfl) _ _
  case sLocal =>
    refine rets_discard ?_
    unfold first
    split
    · exact rets_other (h rfl) f [] s
    · exact rets_andThen (rets_kid (h rfl) _ _) fun v s => rets_other (h rfl) f _ s
  case eMethodCall =>
    unfold first
    split
    · exact rets_other (h rfl) f [] s
    · exact rets_andThen (rets_kid (h rfl) _ _) fun v s => rets_other (h rfl) f _ s
  case eBlock => exact rets_labelled (rets_stmts (h rfl) s)
  case eMatch =>
    exact rets_andThen (rets_kid (h rfl) _ _) fun v s =>
      rets_arms (fun d hd => h rfl d (List.mem_of_mem_tail hd)) s
  case arm => exact rets_arm (h rfl) _ _
  case eIf =>
    unfold Eval.cond
    refine rets_andThen (rets_kid (h rfl) _ _) fun v s => ?_
    split
    · exact rets_kid (h rfl) _ _
    · split
      · exact rets_val
      · exact rets_kid (h rfl) _ _
  case eLoop => exact rets_loop (fun s => rets_kid (h rfl) _ _) f s
  case eWhile =>
    exact rets_while (fun s => rets_kid (h rfl) _ _) (fun s => rets_kid (h rfl) _ _) f s
  case eForLoop =>
    exact rets_andThen (rets_kid (h rfl) _ _) fun v s =>
      rets_for (fun s => rets_kid (h rfl) _ _) f s

/-- Every `return` comes from a `return` in the source. -/
theorem rets_visible {en : Ident} {f : Nat} : ∀ n : Node,
    RetsD (∃ as, (Kind.eReturn, as) ∈ visible n) (eval M en f n) := by
  refine Node.ind (P := fun n => RetsD (∃ as, (Kind.eReturn, as) ∈ visible n) (eval M en f n)) ?_
  intro k as ks ih
  rw [eval]
  refine rets_node (fun hh d hd => ?_) (fun hl => ?_)
  · obtain ⟨n, hn, rfl⟩ := mem_evalL hd
    intro x s v s' h
    obtain ⟨as', hm⟩ := ih n hn x s v s' h
    refine ⟨as', ?_⟩
    rw [visible, hh]
    exact List.mem_cons_of_mem _ (visibleL_mem hn hm)
  · subst hl
    exact ⟨as, by rw [visible]; exact List.mem_cons_self⟩

/-! ## The description -/

theorem tame_unmarked {m : String} : ∀ n : Node, tame [m] n = true → withoutMarkers m n = n := by
  refine Node.ind (P := fun n => tame [m] n = true → withoutMarkers m n = n) ?_
  intro k as ks ih h
  rw [tame, Bool.and_eq_true, Bool.and_eq_true] at h
  obtain ⟨⟨-, h1⟩, h2⟩ := h
  have h0 : callsMacro m k = false := by
    cases hc : callsMacro m k
    · rfl
    · obtain ⟨t, rfl⟩ := callsMacro_iff.mp hc
      simp [tameKind] at h1
  rw [withoutMarkers, h0]
  simp only [Bool.false_and, Bool.false_eq_true, if_false]
  split
  · rfl
  · rename_i hh
    have hl := tameL_mem (by simpa [hh] using h2)
    congr 1
    rw [withoutMarkersL_map]
    have : ∀ l : List Node, (∀ c ∈ l, c ∈ ks) → l.map (withoutMarkers m) = l := by
      intro l
      induction l with
      | nil => intro _; rfl
      | cons a l ihl =>
        intro hm
        have ha := hm a List.mem_cons_self
        rw [List.map_cons, ih a ha (hl a ha), ihl fun c hc => hm c (List.mem_cons_of_mem _ hc)]
    exact this ks fun _ h => h

theorem consistent_wrapped {J : Job} : ∀ n ts r, consistent J ts r n = true → Consistent M J ts r n := by
  refine Node.ind (P := fun n => ∀ ts r, consistent J ts r n = true → Consistent M J ts r n) ?_
  intro k as ks ih ts r h
  have hl : ∀ (l : List Node) (tss : Nat → List Target) (rs : Nat → Role) (ws : Nat → Option Bool),
      (∀ n ∈ l, n ∈ ks) → consistentL J tss rs ws l = true → ConsistentL M J tss rs ws l := by
    intro l
    induction l with
    | nil => intro _ _ _ _ _; rw [ConsistentL]; trivial
    | cons a l ihl =>
      intro tss rs ws hm h
      rw [consistentL, Bool.and_eq_true, Bool.and_eq_true] at h
      rw [ConsistentL]
      refine ⟨ih a (hm a List.mem_cons_self) _ _ h.1.1, fun b hb => ?_,
        ihl _ _ _ (fun n hn => hm n (List.mem_cons_of_mem _ hn)) h.2⟩
      have h2 := h.1.2
      rw [hb] at h2
      simp only [Bool.or_eq_true, beq_iff_eq, reduceCtorEq, false_or, Option.some.injEq] at h2
      rcases h2 with h2 | h2
      · exact .inl h2.symm
      · right
        have ht : tame [J.marker] a = true := by
          unfold abrupt at h2
          rw [Bool.and_eq_true] at h2
          exact h2.1
        rw [tame_unmarked a ht]
        exact abrupt_never h2
  rw [consistent] at h
  simp only [Bool.and_eq_true, Bool.or_eq_true, Bool.not_eq_true'] at h
  obtain ⟨⟨⟨⟨h1, h2⟩, h3⟩, h4⟩, h5⟩ := h
  rw [Consistent]
  refine ⟨h1, fun _ hn => ?_, fun _ _ => h2, fun e hc he f x s s' => ?_, fun hf => ?_, fun hh hf => ?_⟩
  · rw [h2] at hn; cases hn
  · subst he
    rw [hc] at h3
    have h3 := h3.resolve_left (by simp)
    simp only [leavesNothing, List.all_cons, List.all_nil, Bool.and_true, List.all_eq_true, Bool.and_eq_true,
      Bool.not_eq_true', Bool.or_eq_true, bne_iff_ne, ne_eq] at h3
    constructor
    · intro l v h
      obtain ⟨as', hm⟩ := breaks_visible e x s l v s' h
      have := (h3 _ hm).1
      cases this
    · intro v h
      obtain ⟨as', hm⟩ := rets_visible e x s v s' h
      exact (h3 _ hm).2.resolve_right (by simp)
  · rw [hf] at h4
    exact inert_code (h4.resolve_left (by simp))
  · rw [hh, hf] at h5
    exact hl ks _ _ _ (fun n hn => hn) (h5.resolve_left (by simp))

end

end AutoEnums
