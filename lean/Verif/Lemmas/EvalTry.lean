import Verif.Spec.EvalTry
import Verif.Lemmas.EvalRun

/-! # Lemmas: the desugaring of `?` keeps the meaning of code -/

namespace AutoEnums

open Spec

section

variable {B S : Type} {M : Machine B S} {vs : List Ident}

open Eval

/-! ## Relations that allow for desugared `?`s -/

/-- Outcomes are equal or a failing `?` and a `return`. -/
structure Loose (R : Outcome B → Outcome B → Prop) : Prop where
  same : ∀ o, (∀ v, o ≠ .fail v) → R o o
  inv : ∀ {o o'}, R o o' → o' = o ∨ ∃ v v', o = .fail v ∧ o' = .ret v'

theorem Loose.eq : Loose (B := B) fun o o' => o' = o := ⟨fun _ _ => rfl, .inl⟩

theorem loose_desugars : Loose (Desugars M vs) := by
  constructor
  · intro o h
    cases o <;> first | rfl | exact absurd rfl (h _)
  · intro o o' h
    cases o <;> first | exact .inl h | skip
    obtain ⟨v, rfl, x, _, rfl⟩ := h
    exact .inr ⟨_, _, rfl, rfl⟩

theorem Loose.done {R : Outcome B → Outcome B → Prop} (hR : Loose R) {o : Outcome B} {s : S}
    (h : ∀ v, o ≠ .fail v) : Agree R (some (o, s)) (some (o, s)) := ⟨rfl, hR.same o h⟩

/-- What passes `?` and `return` on respects the relation. -/
theorem Loose.pass {R R' : Outcome B → Outcome B → Prop} (hR : Loose R) {r r' : Res B S} (hr : Agree R r r')
    {F F' : Res B S → Res B S} (h0 : Agree R' (F none) (F' none))
    (h1 : ∀ v s, r = some (.fail v, s) → ∀ o', R (.fail v) o' → Agree R' (F (some (.fail v, s))) (F' (some (o', s))))
    (h2 : ∀ o s, (∀ v, o ≠ .fail v) → r = some (o, s) → Agree R' (F (some (o, s))) (F' (some (o, s)))) :
    Agree R' (F r) (F' r') := by
  rcases r with _ | ⟨o, s⟩ <;> rcases r' with _ | ⟨o', s'⟩ <;> try (cases hr; done)
  · exact h0
  · obtain ⟨rfl, hr⟩ := hr
    by_cases ho : ∃ v, o = .fail v
    · obtain ⟨v, rfl⟩ := ho
      exact h1 v _ rfl o' hr
    · have ho : ∀ v, o ≠ .fail v := fun v h => ho ⟨v, h⟩
      rcases hR.inv hr with rfl | ⟨v, v', rfl, rfl⟩
      · exact h2 _ _ ho rfl
      · exact absurd rfl (ho v)

/-- The same for functions that keep `?` and `return` as they are. -/
theorem Loose.keep {R : Outcome B → Outcome B → Prop} (hR : Loose R) {r r' : Res B S} (hr : Agree R r r')
    {F F' : Res B S → Res B S} (h0 : Agree R (F none) (F' none))
    (hF : ∀ v s, F (some (.fail v, s)) = some (.fail v, s))
    (hF1 : ∀ v s, F' (some (.fail v, s)) = some (.fail v, s))
    (hF2 : ∀ v s, F' (some (.ret v, s)) = some (.ret v, s))
    (h2 : ∀ o s, (∀ v, o ≠ .fail v) → r = some (o, s) → Agree R (F (some (o, s))) (F' (some (o, s)))) :
    Agree R (F r) (F' r') := by
  refine hR.pass hr h0 (fun v s _ o' ho => ?_) h2
  rw [hF]
  rcases hR.inv ho with rfl | ⟨v, v', _, rfl⟩
  · rw [hF1]; exact ⟨rfl, ho⟩
  · rw [hF2]; exact ⟨rfl, ho⟩

theorem Loose.andThen {R : Outcome B → Outcome B → Prop} (hR : Loose R) {r r' : Res B S}
    {g g' : Value B → S → Res B S} (h : Agree R r r')
    (hg : ∀ v s, r = some (.val v, s) → Agree R (g v s) (g' v s)) :
    Agree R (andThen r g) (andThen r' g') := by
  refine hR.keep (F := fun r => Eval.andThen r g) (F' := fun r => Eval.andThen r g') h trivial
    (fun _ _ => rfl) (fun _ _ => rfl) (fun _ _ => rfl) fun o s ho hr => ?_
  cases o <;> first | exact hg _ _ hr | exact hR.done ho

theorem Loose.discard {R : Outcome B → Outcome B → Prop} (hR : Loose R) {r r' : Res B S}
    (h : Agree R r r') : Agree R (discard M r) (discard M r') :=
  hR.andThen h fun _ _ _ => hR.done (by simp)

theorem Loose.kid {R : Outcome B → Outcome B → Prop} (hR : Loose R) {ds ds' : List (Den B S)}
    (h : SimL (fun _ => R) ds ds') (i : Nat) (s : S) : Agree R (kid M ds i s) (kid M ds' i s) :=
  agree_kid h i (hR.same _ (by simp)) s

theorem Loose.other {R : Outcome B → Outcome B → Prop} (hR : Loose R) {k : Kind} {ds ds' : List (Den B S)}
    (h : SimL (fun _ => R) ds ds') (f : Nat) :
    ∀ us s, Agree R (other M k ds f us s) (other M k ds' f us s) := by
  induction f with
  | zero => intro us s; trivial
  | succ f ih =>
    intro us s
    unfold Eval.other
    cases M.step k us s with
    | done v s => exact hR.done (by simp)
    | panic s => exact hR.done (by simp)
    | kid i s => exact hR.andThen (hR.kid h i s) fun v s _ => ih _ _

theorem Loose.first {R : Outcome B → Outcome B → Prop} (hR : Loose R) {k : Kind} {ds ds' : List (Den B S)}
    (h : SimL (fun _ => R) ds ds') (f : Nat) (s : S) : Agree R (first M k ds f s) (first M k ds' f s) := by
  unfold Eval.first
  rw [h.isEmpty]
  split
  · exact hR.other h f [] s
  · exact hR.andThen (hR.kid h 0 s) fun v s _ => hR.other h f [v] s

theorem Loose.stmts {R : Outcome B → Outcome B → Prop} (hR : Loose R) : ∀ {ds ds' : List (Den B S)},
    SimL (fun _ => R) ds ds' → ∀ s, Agree R (stmts M ds s) (stmts M ds' s) := by
  intro ds
  induction ds with
  | nil => intro ds' h s; cases h; exact hR.done (by simp)
  | cons d ds ih =>
    intro ds' h s
    cases h with
    | cons h1 h2 =>
      cases h2 with
      | nil => exact h1 _ _
      | cons h3 h4 =>
        simp only [Eval.stmts]
        exact hR.andThen (h1 _ _) fun _ s _ => ih (.cons h3 h4) s

theorem Loose.arms {R : Outcome B → Outcome B → Prop} (hR : Loose R) {v : Value B} : ∀ {ds ds' : List (Den B S)},
    SimL (fun _ => R) ds ds' → ∀ s, Agree R (arms v ds s) (arms v ds' s) := by
  intro ds
  induction ds with
  | nil => intro ds' h s; cases h; exact hR.done (by simp)
  | cons d ds ih =>
    intro ds' h s
    cases h with
    | cons h1 h2 =>
      rename_i d' ds'
      simp only [Eval.arms]
      refine hR.keep (r := d v s) (r' := d' v s)
        (F := fun r => match r with | some (.miss, s) => Eval.arms v ds s | r => r)
        (F' := fun r => match r with | some (.miss, s) => Eval.arms v ds' s | r => r) (h1 v s) trivial
        (fun _ _ => rfl) (fun _ _ => rfl) (fun _ _ => rfl) fun o s ho hr => ?_
      cases o <;> first | exact ih h2 _ | exact hR.done ho

theorem Loose.labelled {R : Outcome B → Outcome B → Prop} (hR : Loose R) {l : Option String} {r r' : Res B S}
    (h : Agree R r r') : Agree R (labelled l r) (labelled l r') := by
  refine hR.keep (F := Eval.labelled l) (F' := Eval.labelled l) h trivial
    (fun _ _ => rfl) (fun _ _ => rfl) (fun _ _ => rfl) fun o s ho hr => ?_
  cases o <;> try exact hR.done ho
  rename_i b v
  cases b with
  | none => exact hR.done ho
  | some b =>
    simp only [Eval.labelled]
    split <;> exact hR.done (by simp)

theorem Loose.round {R : Outcome B → Outcome B → Prop} (hR : Loose R) {l : Option String} {r r' : Res B S}
    {next next' : S → Res B S} {leave : Value B → S → Res B S} (h : Agree R r r')
    (hn : ∀ s, Agree R (next s) (next' s)) (hl : ∀ v s, Agree R (leave v s) (leave v s)) :
    Agree R (round l r next leave) (round l r' next' leave) := by
  refine hR.keep (F := fun r => Eval.round l r next leave) (F' := fun r => Eval.round l r next' leave) h trivial
    (fun _ _ => rfl) (fun _ _ => rfl) (fun _ _ => rfl) fun o s ho hr => ?_
  cases o <;> try (first | exact hn _ | exact hR.done ho)
  · simp only [Eval.round]; split
    · exact hl _ _
    · exact hR.done ho
  · simp only [Eval.round]; split
    · exact hn _
    · exact hR.done ho

theorem Loose.loop {R : Outcome B → Outcome B → Prop} (hR : Loose R) {l : Option String} {d d' : S → Res B S}
    (h : ∀ s, Agree R (d s) (d' s)) (f : Nat) : ∀ s, Agree R (loop l d f s) (loop l d' f s) := by
  induction f with
  | zero => intro s; trivial
  | succ f ih => intro s; exact hR.round (h s) ih fun v s => hR.done (by simp)

theorem Loose.for {R : Outcome B → Outcome B → Prop} (hR : Loose R) {k : Kind} {l : Option String} {v : Value B}
    {d d' : S → Res B S} (h : ∀ s, Agree R (d s) (d' s)) (f : Nat) :
    ∀ s, Agree R (for_ M k l v d f s) (for_ M k l v d' f s) := by
  induction f with
  | zero => intro s; trivial
  | succ f ih =>
    intro s
    unfold for_
    cases M.step k [v] s with
    | done v s => exact hR.done (by simp)
    | panic s => exact hR.done (by simp)
    | kid i s => exact hR.round (h s) ih fun v s => hR.done (by simp)

theorem Loose.while {R : Outcome B → Outcome B → Prop} (hR : Loose R) {l : Option String}
    {c c' d d' : S → Res B S} (hc : ∀ s, Agree R (c s) (c' s)) (h : ∀ s, Agree R (d s) (d' s)) (f : Nat) :
    ∀ s, Agree R (while_ M l c d f s) (while_ M l c' d' f s) := by
  induction f with
  | zero => intro s; trivial
  | succ f ih =>
    intro s
    have hl : ∀ (v : Value B) (s : S), Agree R (some (.val (unit M), s)) (some (.val (unit M), s)) :=
      fun v s => hR.done (by simp)
    have key : ∀ (o : Outcome B) (s' : S), c s = some (o, s') → (∀ v, o ≠ .fail v) → (∀ v, o ≠ .val v) →
        Agree R (Eval.round l (some (o, s')) (while_ M l c d f) fun _ s => some (.val (unit M), s))
          (Eval.round l (some (o, s')) (while_ M l c' d' f) fun _ s => some (.val (unit M), s)) :=
      fun o s' _ ho _ => hR.round (hR.done ho) ih hl
    unfold while_
    dsimp only
    refine hR.keep (r := c s) (r' := c' s)
      (F := fun r => match r with
        | some (.val v, s) => if M.truth v s then Eval.round l (d s) (while_ M l c d f) fun _ s => some (.val (unit M), s)
            else some (.val (unit M), s)
        | r => Eval.round l r (while_ M l c d f) fun _ s => some (.val (unit M), s))
      (F' := fun r => match r with
        | some (.val v, s) => if M.truth v s then Eval.round l (d' s) (while_ M l c' d' f) fun _ s => some (.val (unit M), s)
            else some (.val (unit M), s)
        | r => Eval.round l r (while_ M l c' d' f) fun _ s => some (.val (unit M), s)) (hc s) trivial
      (fun _ _ => rfl) (fun _ _ => rfl) (fun _ _ => rfl) fun o s ho hr => ?_
    cases o <;> try (exact key _ _ hr ho (by simp))
    dsimp only
    split
    · exact hR.round (h _) ih hl
    · exact hR.done (by simp)

theorem Loose.cond {R : Outcome B → Outcome B → Prop} (hR : Loose R) {ds ds' : List (Den B S)}
    (h : SimL (fun _ => R) ds ds') (s : S) : Agree R (cond M ds s) (cond M ds' s) := by
  unfold Eval.cond
  refine hR.andThen (hR.kid h 0 s) fun v s _ => ?_
  rw [h.length]
  split
  · exact hR.kid h 1 s
  · split
    · exact hR.done (by simp)
    · exact hR.kid h 2 s

theorem Loose.arm {R : Outcome B → Outcome B → Prop} (hR : Loose R) {ds ds' : List (Den B S)}
    (h : SimL (fun _ => R) ds ds') (p : String) (v : Value B) (s : S) :
    Agree R (arm M p ds v s) (arm M p ds' v s) := by
  unfold Eval.arm
  dsimp only
  split
  · cases h with
    | nil => exact hR.done (by simp)
    | cons h1 h2 => cases h2 with
      | nil => exact h1 _ _
      | cons h3 h4 => cases h4 with
        | nil =>
          refine hR.andThen (h1 _ _) fun v s _ => ?_
          split
          · exact h3 _ _
          · exact hR.done (by simp)
        | cons => exact hR.done (by simp)
  · exact hR.done (by simp)

theorem Loose.freeze {R : Outcome B → Outcome B → Prop} (hR : Loose R) {k : Kind} {ks ks' : List Node} {s : S}
    (h : noAttrsL ks' = noAttrsL ks) : Agree R (freeze M k ks s) (freeze M k ks' s) := by
  unfold Eval.freeze
  rw [h]
  split <;> exact hR.done (by simp)

/-- Nodes with equivalent kids. -/
theorem Loose.node {R : Outcome B → Outcome B → Prop} (hR : Loose R) {en : Ident} {f : Nat} {k : Kind}
    {ks ks' : List Node} {ds ds' : List (Den B S)}
    (htry : k = .eTry → ∀ v, R (.fail v) (.fail v)) (hblk : k ≠ .eTryBlock)
    (hk : hidesCode k = false → isFrozen k = false → SimL (fun _ => R) ds ds')
    (hfr : hidesCode k = true ∨ isFrozen k = true → noAttrsL ks' = noAttrsL ks)
    (hcon : k = .eCall → constructor M en ks' = constructor M en ks) :
    Sim R (node M en f k ks ds) (node M en f k ks' ds') := by
  intro x s
  by_cases hoth : isOther k = true
  · rw [node_other hoth, node_other hoth]
    refine hR.other (hk ?_ ?_) f [] s
    · cases k <;> first | rfl | cases hoth
    · cases k <;> first | rfl | cases hoth
  cases k <;> try (exact absurd rfl hoth)
  case eAsync => exact hR.freeze (hfr (.inr rfl))
  case eClosure => exact hR.freeze (hfr (.inr rfl))
  case eVerbatim => exact hR.freeze (hfr (.inl rfl))
  case eMacro =>
    simp only [Eval.node]
    split
    · exact hR.done (by simp)
    · exact hR.freeze (hfr (.inl rfl))
  case sMacro =>
    simp only [Eval.node]
    split
    · exact hR.done (by simp)
    · exact hR.freeze (hfr (.inl rfl))
  case sItem => exact hR.done (by simp)
  case eContinue => exact hR.done (by simp)
  case eTryBlock => exact absurd rfl hblk
  all_goals
    have hp := hk rfl rfl
    have hk0 := fun i s => hR.kid (M := M) hp i s
  case eCall =>
    simp only [Eval.node]
    rw [hcon rfl]
    split
    · exact hR.andThen (hk0 1 s) fun v s _ => hR.done (by simp)
    · exact hR.other hp f [] s
  case ePath q p =>
    simp only [Eval.node]
    split
    · exact hR.done (by simp)
    · exact hR.other hp f [] s
  case eTuple =>
    simp only [Eval.node]
    rw [hp.isEmpty]
    split
    · exact hR.done (by simp)
    · exact hR.other hp f [] s
  case eTry =>
    simp only [Eval.node]
    refine hR.andThen (hk0 0 s) fun v s _ => ?_
    split
    · exact ⟨rfl, htry rfl v⟩
    · cases M.step .eTry [v] s <;> exact hR.done (by simp)
  case eReturn =>
    simp only [Eval.node]
    rw [hp.isEmpty]
    split
    · exact hR.done (by simp)
    · exact hR.andThen (hk0 0 s) fun v s _ => hR.done (by simp)
  case eBreak l =>
    simp only [Eval.node]
    rw [hp.isEmpty]
    split
    · exact hR.done (by simp)
    · exact hR.andThen (hk0 0 s) fun v s _ => hR.done (by simp)
  case eConst => exact hR.stmts hp s
  case block => exact hR.stmts hp s
  case eUnsafe => exact hR.stmts hp s
  case eGroup => exact hk0 0 s
  case eParen => exact hk0 0 s
  case sExpr semi =>
    cases semi
    · exact hk0 0 s
    · exact hR.discard (hk0 0 s)
  case sLocal p => exact hR.discard (hR.first hp f s)
  case eMethodCall m => exact hR.first hp f s
  case eBlock l => exact hR.labelled (hR.stmts hp s)
  case eMatch =>
    simp only [Eval.node]
    refine hR.andThen (hk0 0 s) fun v s _ => ?_
    cases hp with
    | nil => exact hR.done (by simp)
    | cons _ h => exact hR.arms h s
  case arm p => exact hR.arm hp p x s
  case eIf => exact hR.cond hp s
  case eLoop l => exact hR.loop (hk0 0) f s
  case eWhile l => exact hR.while (hk0 0) (hk0 1) f s
  case eForLoop l p =>
    simp only [Eval.node]
    exact hR.andThen (hk0 0 s) fun v s _ => hR.for (hk0 1) f s

/-! ## Code that is not run on the spot -/

theorem role_none {J : Job} (hb : J.branches = false) (r : Role) (k : Kind) (as : List Attr) (ks : List Node) :
    role J r k as ks = .plain := by
  unfold role; rw [if_pos hb]

/-- Code without markers and `?`s keeps its meaning. -/
theorem treat_untried {J : Job} (hb : J.branches = false) (hret : J.returns = false) :
    ∀ (n : Node) (w : Where) (ts : List Target) (r : Role),
    noneOurs ts → (∀ l ∈ visible n, ∀ p t, l.1 = .eMacro p t → p ≠ ⟨false, [⟨J.marker, none⟩]⟩) →
    (w.closure = true ∨ ∀ l ∈ visible n, l.1 ≠ .eTry) →
    noAttrs (treat J w ts r n) = noAttrs n := by
  refine Node.ind (P := fun n => ∀ (w : Where) (ts : List Target) (r : Role), noneOurs ts →
    (∀ l ∈ visible n, ∀ p t, l.1 = .eMacro p t → p ≠ ⟨false, [⟨J.marker, none⟩]⟩) →
    (w.closure = true ∨ ∀ l ∈ visible n, l.1 ≠ .eTry) →
    noAttrs (treat J w ts r n) = noAttrs n) ?_
  intro k as ks ih w ts r hts hm hr
  have hvis : ∀ c ∈ ks, hidesCode k = false → ∀ l ∈ visible c, l ∈ visible (.mk k as ks) := by
    intro c hc hk l hl
    rw [visible, hk]
    simp only [List.mem_cons]
    exact .inr (visibleL_mem hc hl)
  rw [treat.eq_def]
  dsimp only
  rw [role_none hb]
  have hkids : hidesCode k = false → noAttrsL (treatL J (w.enter k) (fun i => kidTargets ts .plain k as i)
      (fun i => kidRole .plain k as ks.length i) ks) = noAttrsL ks := by
    intro hc
    have : ∀ (l : List Node) (ts : Nat → List Target) (rs : Nat → Role), (∀ n ∈ l, n ∈ ks) →
        (∀ i, noneOurs (ts i)) → noAttrsL (treatL J (w.enter k) ts rs l) = noAttrsL l := by
      intro l
      induction l with
      | nil => intros; rfl
      | cons n ns ih2 =>
        intro ts rs hmem hts
        simp only [treatL, noAttrsL]
        rw [ih n (hmem n (by simp)) _ _ _ (hts 0)
            (fun l hl => hm l (hvis n (hmem n (by simp)) hc l hl)) ?_,
          ih2 _ _ (fun n h => hmem n (by simp [h])) (fun i => hts _)]
        rcases hr with h | h
        · exact .inl (enter_closure h k)
        · exact .inr fun l hl => h l (hvis n (hmem n (by simp)) hc l hl)
    exact this ks _ _ (fun _ h => h) (fun i => hts.kid (by simp))
  have hks : noAttrsL (if hidesCode k then ks
       else treatL J (w.enter k) (fun i => kidTargets ts .plain k as i)
        (fun i => kidRole .plain k as ks.length i) ks) = noAttrsL ks := by
    split
    · rfl
    · exact hkids (by simp_all)
  revert hks
  generalize (if hidesCode k then ks
       else treatL J (w.enter k) (fun i => kidTargets ts .plain k as i)
        (fun i => kidRole .plain k as ks.length i) ks) = ks1
  intro hks
  unfold assemble
  dsimp only
  split
  · simp only [hret, Bool.false_and, Bool.false_eq_true, if_false, noAttrs, hks]
  · rw [hits_noneOurs (hts.through _ _)]
    simp only [Bool.false_and, Bool.false_eq_true, if_false, noAttrs, hks]
  · split
    · rw [if_neg, noAttrs, hks, noAttrs]
      intro h
      simp only [Bool.and_eq_true, Bool.not_eq_true'] at h
      rcases hr with h' | h'
      · rw [enter_closure h'] at h; cases h.1.1.1.2
      · exact h' _ (by rw [visible]; exact List.mem_cons_self) rfl
    · simp only [noAttrs, hks]
  · split
    · rw [if_neg]
      · rfl
      · exact hm _ (by rw [visible]; exact List.mem_cons_self) _ _ rfl
    · rfl
  · simp [noAttrs, hks]
  · simp [noAttrs, hks]
  · simp [noAttrs, hks]
  · simp only [noAttrs, hks]

theorem alike_of_noAttrs {en : Ident} {n n' t : Node} (h1 : noAttrs t = noAttrs n) (hc : ctors en n = 0)
    (h : Alike en n' t) : noAttrs n' = noAttrs n := by
  have h2 : ctors en t = 0 := by rw [← ctors_noAttrs, h1, ctors_noAttrs, hc]
  have h3 : ctors en n' = 0 := by rw [h.ctors, h2]
  have h4 : n' = t := by
    have := h
    unfold Alike at this
    rw [noAttrs_blur _ h3, noAttrs_blur _ h2] at this
    exact this
  rw [h4, h1]

/-! ## The kinds of the kids of calls -/

theorem Fallible.marker {ok : Value B → Value B} {J : Job} {tb : Bool} {k : Kind} {as : List Attr}
    {ks : List Node} (h : Fallible M ok J tb (.mk k as ks)) :
    ∀ p t, k = .eMacro p t → p ≠ ⟨false, [⟨J.marker, none⟩]⟩ := by
  rw [Fallible] at h
  exact h.1

theorem treat_kind_tries {J : Job} {w : Where} {ts : List Target} {r : Role} {k : Kind}
    {as : List Attr} {ks : List Node} (hm : ∀ p t, k = .eMacro p t → p ≠ ⟨false, [⟨J.marker, none⟩]⟩) :
    (treat J w ts r (.mk k as ks)).kind = k ∨
      k = .eTry ∧ (treat J w ts r (.mk k as ks)).kind = .eMatch := by
  rw [treat.eq_def]
  unfold assemble
  dsimp only
  split
  · left; split <;> rfl
  · left; split <;> rfl
  · split
    · split
      · right; exact ⟨rfl, rfl⟩
      · left; rfl
    · left; rfl
  · left
    split
    · rw [if_neg (hm _ _ rfl)]; rfl
    · rfl
  all_goals exact .inl rfl

theorem constructor_tries {ok : Value B → Value B} {J : Job} {tb : Bool} {w : Where}
    {ks ks' : List Node} {ts : Nat → List Target} {rs : Nat → Role} (hs : FallibleL M ok J tb ks)
    (hc : weighL (isCtor J.en) ks = 0) (h : AlikeL J.en ks' (treatL J w ts rs ks)) :
    constructor M J.en ks' = constructor M J.en ks := by
  have hl : ks'.length = ks.length := by rw [h.length, treatL_length]
  match ks, ks', hl with
  | [], [], _ => rfl
  | [_], [_], _ => rfl
  | _ :: _ :: _ :: _, _ :: _ :: _ :: _, _ => rfl
  | [a, b], [a', b'], _ =>
    simp only [constructor]
    rw [FallibleL] at hs
    rw [weighL_cons] at hc
    simp only [treatL] at h
    have h1 := (alikeL_cons.mp h).1
    obtain ⟨k, as, kk⟩ := a
    have hk := treat_kind_tries (w := w) (ts := ts 0) (r := rs 0) (as := as) (ks := kk) (Fallible.marker hs.1)
    revert hk h1
    generalize treat J w (ts 0) (rs 0) (.mk k as kk) = t
    obtain ⟨tk, tas, tks⟩ := t
    intro h1 hk
    simp only [Node.kind] at hk
    obtain ⟨k', l', rfl, h3, _⟩ := h1.inv
    rw [weigh_mk] at hc
    simp only [Node.kind]
    rcases hk with rfl | ⟨rfl, rfl⟩
    · rw [kind_of_blur (as := as) (by omega) h3]
    · rw [blurK_rigid h3 (by simp)]
      rfl

/-! ## The desugared `?` -/

/-- What the desugared `?` evaluates to. -/
theorem eval_tryMatch (L : Results M) {en : Ident} {f : Nat} {as : List Attr} {vn : Ident} {e : Node}
    (x : Value B) (s : S) :
    ∀ v s', eval M en (f + 1) e (unit M) s = some (.val v, s') →
      (∀ u, v = L.ok u → eval M en (f + 1) (tryMatch as en vn e) x s = some (.val u, s')) ∧
      (∀ u, v = M.err u → eval M en (f + 1) (tryMatch as en vn e) x s =
        some (.ret (M.err (.inj vn u)), s')) := by
  intro v s' he
  constructor
  · rintro u rfl
    obtain ⟨h1, h2⟩ := L.okArm u s'
    simp only [tryMatch, eval, evalL, node, kid, List.getElem?_cons_zero, he, Eval.andThen, List.tail_cons,
      arms, Eval.arm, h1, if_true, List.map_cons, List.map_nil]
    rw [if_neg (by simp [isNone, isOneOf])]
    unfold Eval.other
    rw [show Kind.ePath false ⟨false, [⟨"val", none⟩]⟩ = variable_ "val" from rfl, h2]
  · rintro u rfl
    obtain ⟨h1, h2⟩ := L.errArm u s'
    have h0 := L.errMiss u s'
    have hE : isErr ⟨true, [⟨"core", none⟩, ⟨"result", none⟩, ⟨"Result", none⟩, ⟨"Err", none⟩]⟩ = true := by
      simp [isErr, isOneOf]
    simp only [tryMatch, eval, evalL, node, kid, List.getElem?_cons_zero, he, Eval.andThen, List.tail_cons,
      arms, Eval.arm, h0, h1, if_true, List.map_cons, List.map_nil, Bool.false_eq_true, if_false, Eval.stmts,
      List.isEmpty_cons, constructor, callee, construct, Node.kind, variantPath, List.getElem?_cons_succ, hE]
    rw [if_neg (by simp [isNone, isOneOf])]
    unfold Eval.other
    rw [show Kind.ePath false ⟨false, [⟨"err", none⟩]⟩ = variable_ "err" from rfl, h2]
    simp [Eval.discard, Eval.andThen, Eval.labelled]

/-- Whatever the operand does but yield a value, the desugared `?` does. -/
theorem eval_tryMatch_other {en : Ident} {f : Nat} {as : List Attr} {vn : Ident} {e : Node}
    (x : Value B) (s : S) (h : ∀ v s', eval M en f e (unit M) s ≠ some (.val v, s')) :
    eval M en f (tryMatch as en vn e) x s = eval M en f e (unit M) s := by
  simp only [tryMatch, eval, evalL, node, kid, List.getElem?_cons_zero]
  unfold Eval.andThen
  split
  · rename_i h1; exact absurd h1 (h _ _)
  · rfl

/-- Trees alike to a desugared `?`. -/
theorem tryMatch_inv {J : Job} {as : List Attr} {x e : Node} (h : Alike J.en x (tryMatch as J.en "" e)) :
    ∃ v e', x = tryMatch as J.en v e' ∧ Alike J.en e' e := by
  have hp : ∀ {p : Path} {y : Node}, p.segs.length ≠ 2 → Alike J.en y (.mk (.ePath false p) [] []) →
      y = .mk (.ePath false p) [] [] := by
    intro p y hp h
    obtain ⟨k, kk, rfl, h1, h2⟩ := h.inv
    obtain ⟨p', rfl, h3⟩ := blurK_path h1
    cases alikeL_nil h2
    rcases h3 with rfl | ⟨_, h3⟩
    · rfl
    · exact absurd h3 hp
  obtain ⟨ks, rfl, h1⟩ := Alike.rigid (k := .eMatch) (as := as) h (by simp)
  obtain ⟨e', m, rfl, he, h2⟩ := alikeL_inv h1
  obtain ⟨a1, m, rfl, ha1, h3⟩ := alikeL_inv h2
  obtain ⟨a2, m, rfl, ha2, h4⟩ := alikeL_inv h3
  cases alikeL_nil h4
  obtain ⟨k1, rfl, h5⟩ := Alike.rigid ha1 (by simp)
  obtain ⟨v1, m, rfl, hv1, h6⟩ := alikeL_inv h5
  cases alikeL_nil h6
  obtain ⟨k2, rfl, h7⟩ := Alike.rigid ha2 (by simp)
  obtain ⟨b, m, rfl, hb, h8⟩ := alikeL_inv h7
  cases alikeL_nil h8
  obtain ⟨k3, rfl, h9⟩ := Alike.rigid hb (by simp)
  obtain ⟨st, m, rfl, hst, h10⟩ := alikeL_inv h9
  cases alikeL_nil h10
  obtain ⟨k4, rfl, h11⟩ := Alike.rigid hst (by simp)
  obtain ⟨re, m, rfl, hre, h12⟩ := alikeL_inv h11
  cases alikeL_nil h12
  obtain ⟨k5, rfl, h13⟩ := Alike.rigid hre (by simp)
  obtain ⟨ca, m, rfl, hca, h14⟩ := alikeL_inv h13
  cases alikeL_nil h14
  obtain ⟨k6, rfl, h15⟩ := Alike.rigid hca (by simp)
  obtain ⟨er, m, rfl, her, h16⟩ := alikeL_inv h15
  obtain ⟨co, m, rfl, hco, h17⟩ := alikeL_inv h16
  cases alikeL_nil h17
  obtain ⟨v, y, rfl, hy⟩ := ctor_inv (J := J) hco
  rw [hp (by simp) hv1, hp (by simp) her, hp (by simp) hy]
  exact ⟨v, e', rfl, he⟩

theorem ctorsIn.tryMatch {en : Ident} {as : List Attr} {v : Ident} {e : Node}
    (h : ctorsIn vs en (tryMatch as en v e)) : v ∈ vs ∧ ctorsIn vs en e := by
  refine ⟨?_, ctorsIn.kids h e (by simp)⟩
  refine h (.ePath false (variantPath en v), []) ?_ v rfl
  simp [Spec.tryMatch, Spec.construct, labels, labelsL]

/-! ## The whole -/

/-- Outcomes inside and outside of `try` blocks. -/
def tryRel (M : Machine B S) (vs : List Ident) (caught : Bool) : Outcome B → Outcome B → Prop :=
  if caught = true then fun o o' => o' = o else Desugars M vs

theorem loose_tryRel (caught : Bool) : Loose (tryRel M vs caught) := by
  unfold tryRel
  split
  · exact .eq
  · exact loose_desugars

/-- The desugaring keeps the meaning of code. -/
theorem eval_desugar {J : Job} (hb : J.branches = false) (hret : J.returns = false) (ht : J.tries = true)
    (L : Results M) (f : Nat) : ∀ (n : Node) (w : Where) (ts : List Target)
    (r : Role) (n' : Node), w.closure = false → noneOurs ts → Fallible M L.ok J w.tryBlock n →
    ctors J.en n = 0 → Alike J.en n' (treat J w ts r n) → ctorsIn vs J.en n' →
    Sim (tryRel M vs w.tryBlock) (eval M J.en (f + 1) n) (eval M J.en (f + 1) n') := by
  refine Node.ind (P := fun n => ∀ (w : Where) (ts : List Target)
    (r : Role) (n' : Node), w.closure = false → noneOurs ts → Fallible M L.ok J w.tryBlock n →
    ctors J.en n = 0 → Alike J.en n' (treat J w ts r n) → ctorsIn vs J.en n' →
    Sim (tryRel M vs w.tryBlock) (eval M J.en (f + 1) n) (eval M J.en (f + 1) n')) ?_
  intro k as ks ih w ts r n' hcl hts hsup hct ha hvs
  rw [Fallible] at hsup
  obtain ⟨hmac, htry, hfro, hkids⟩ := hsup
  simp only [ctors, weigh_mk] at hct
  rw [treat.eq_def] at ha
  dsimp only at ha
  rw [role_none hb] at ha
  have hk0 : isCtor J.en (k, as) = 0 := by omega
  have hwb : (w.enter k).tryBlock = (w.tryBlock || k == .eTryBlock) := by
    cases k <;> simp [Where.enter]
  -- the kids
  have hsim : hidesCode k = false → isFrozen k = false → ∀ ks',
      AlikeL J.en ks' (treatL J (w.enter k) (fun i => kidTargets ts .plain k as i)
        (fun i => kidRole .plain k as ks.length i) ks) → (∀ n ∈ ks', ctorsIn vs J.en n) →
      SimL (fun _ => tryRel M vs (w.enter k).tryBlock) (evalL M J.en (f + 1) ks) (evalL M J.en (f + 1) ks') := by
    intro hh hf ks' hks' hvs'
    have hcl' : (w.enter k).closure = false := by
      cases k <;> first | exact hcl | cases hf
    have : ∀ (l l' : List Node) (ts : Nat → List Target) (rs : Nat → Role), (∀ n ∈ l, n ∈ ks) →
        (∀ i, noneOurs (ts i)) → weighL (isCtor J.en) l = 0 → FallibleL M L.ok J (w.enter k).tryBlock l →
        AlikeL J.en l' (treatL J (w.enter k) ts rs l) → (∀ n ∈ l', ctorsIn vs J.en n) →
        SimL (fun _ => tryRel M vs (w.enter k).tryBlock)
          (evalL M J.en (f + 1) l) (evalL M J.en (f + 1) l') := by
      intro l
      induction l with
      | nil => intro l' ts rs _ _ _ _ h _; rw [alikeL_nil h]; exact .nil
      | cons a l ihl =>
        intro l' ts rs hmem hts hc hs h hvs'
        rw [FallibleL] at hs
        rw [weighL_cons] at hc
        simp only [treatL] at h
        obtain ⟨a', m, rfl, h1, h2⟩ := alikeL_inv h
        simp only [evalL]
        exact .cons (ih a (hmem a (by simp)) _ _ _ _ hcl' (hts 0) hs.1 (by simp only [ctors]; omega) h1
            (hvs' a' (by simp)))
          (ihl m _ _ (fun n hn => hmem n (by simp [hn])) (fun i => hts _) (by omega) hs.2 h2
            fun n hn => hvs' n (by simp [hn]))
    exact this ks ks' _ _ (fun _ h => h) (fun i => hts.kid (by simp)) (by omega) (hwb ▸ hkids hh hf) hks' hvs'
  -- nodes that stay
  have hkeep : ∀ as' ks', n' = .mk k as' ks' →
      AlikeL J.en ks' (if hidesCode k then ks else treatL J (w.enter k) (fun i => kidTargets ts .plain k as i)
        (fun i => kidRole .plain k as ks.length i) ks) →
      (k = .eTry → w.tryBlock = true) →
      Sim (tryRel M vs w.tryBlock) (eval M J.en (f + 1) (.mk k as ks)) (eval M J.en (f + 1) n') := by
    rintro as' ks' rfl hks' htb
    simp only [eval]
    by_cases hblk : k = .eTryBlock
    · subst hblk
      have h := hsim rfl rfl ks' hks' hvs.kids
      have he : (w.enter .eTryBlock).tryBlock = true := rfl
      rw [he] at h
      intro x s
      have h1 := (loose_tryRel true).stmts (M := M) h s
      simp only [node]
      revert h1
      generalize Eval.stmts M (evalL M J.en (f + 1) ks) s = a
      generalize Eval.stmts M (evalL M J.en (f + 1) ks') s = a'
      intro h1
      have h2 : a' = a := by
        rcases a with _ | ⟨o, s⟩ <;> rcases a' with _ | ⟨o', s'⟩ <;> try (cases h1; done)
        · rfl
        · obtain ⟨rfl, h1⟩ := h1
          rw [show o' = o from h1]
      rw [h2]
      split
      · exact (loose_tryRel _).done (by simp)
      · exact (loose_tryRel _).done (by simp)
      · rename_i h3 h4
        rcases a with _ | ⟨o, s⟩
        · trivial
        · exact (loose_tryRel _).done fun v hv => h4 v s (by rw [hv])
    · have hw : (w.enter k).tryBlock = w.tryBlock := by
        rw [hwb]; simp [hblk]
      rw [hw] at hsim
      refine (loose_tryRel _).node ?_ hblk ?_ ?_ ?_
      · intro hk v
        unfold tryRel
        rw [if_pos (htb hk)]
      · intro hh hf
        rw [hh] at hks'
        exact hsim hh hf ks' hks' hvs.kids
      · intro hhf
        by_cases hh : hidesCode k = true
        · rw [if_pos hh] at hks'
          have h1 : ctors J.en (.mk .block [] ks) = 0 := by
            simp only [ctors, weigh_mk]
            have : isCtor J.en (.block, []) = 0 := rfl
            omega
          have h2 : Alike J.en (.mk .block [] ks') (.mk .block [] ks) := .node _ _ hks'
          have h3 : ctors J.en (.mk .block [] ks') = 0 := by rw [h2.ctors, h1]
          unfold Alike at h2
          rw [noAttrs_blur _ h1, noAttrs_blur _ h3] at h2
          cases h2
          rfl
        · have hf := hhf.resolve_left hh
          rw [if_neg hh] at hks'
          obtain ⟨hi1, hi2⟩ := hfro hf
          have hkt : ∀ i, kidTargets ts .plain k as i = [] := by
            intro i; cases k <;> first | rfl | cases hf
          have hnt : (w.enter k).closure = true ∨ ∀ l ∈ visibleL ks, l.1 ≠ .eTry := by
            cases k <;> first | (cases hf; done) | exact .inl rfl | exact .inr (hi2 rfl)
          have : ∀ (l l' : List Node) (ts : Nat → List Target) (rs : Nat → Role), (∀ n ∈ l, n ∈ ks) →
              weighL (isCtor J.en) l = 0 → (∀ i, ts i = []) →
              AlikeL J.en l' (treatL J (w.enter k) ts rs l) → noAttrsL l' = noAttrsL l := by
            intro l
            induction l with
            | nil => intro l' ts rs _ _ _ h; rw [alikeL_nil h]
            | cons a l ihl =>
              intro l' ts rs hmem hc hts h
              rw [weighL_cons] at hc
              simp only [treatL] at h
              obtain ⟨a', m, rfl, h1, h2⟩ := alikeL_inv h
              rw [hts] at h1
              rw [noAttrsL, noAttrsL, ihl m _ _ (fun n hn => hmem n (by simp [hn])) (by omega)
                (fun i => hts _) h2]
              have hv : ∀ x ∈ visible a, x ∈ visibleL ks := fun x hx => visibleL_mem (hmem a (by simp)) hx
              rw [alike_of_noAttrs (treat_untried hb hret a _ _ _ (by intro t ht; cases ht)
                (fun x hx => hi1 x (hv x hx)) ?_) (by simp only [ctors]; omega) h1]
              rcases hnt with h | h
              · exact .inl h
              · exact .inr fun x hx => h x (hv x hx)
          exact this ks ks' _ _ (fun _ h => h) (by omega) hkt hks'
      · rintro rfl
        exact constructor_tries (hkids rfl rfl) (by omega) hks'
  have hcls : ∀ {ks2}, Alike J.en n' (.mk k (if carries k then strip as else as) ks2) →
      ∃ ks', n' = .mk k (if carries k then strip as else as) ks' ∧ AlikeL J.en ks' ks2 := by
    intro ks2 h
    obtain ⟨k', ks', rfl, h1, h2⟩ := h.inv
    rw [kind_of_blur hk0 h1]
    exact ⟨ks', rfl, h2⟩
  unfold assemble at ha
  dsimp only at ha
  split at ha
  · -- `return`
    simp only [hret, Bool.false_and, Bool.false_eq_true, if_false] at ha
    obtain ⟨ks', rfl, hks'⟩ := hcls ha
    exact hkeep _ _ rfl hks' (by simp)
  · -- `break`
    rw [hits_noneOurs (hts.through _ _)] at ha
    simp only [Bool.false_and, Bool.false_eq_true, if_false] at ha
    obtain ⟨ks', rfl, hks'⟩ := hcls ha
    exact hkeep _ _ rfl hks' (by simp)
  · -- `?`
    by_cases htb : w.tryBlock = true
    · have ha : Alike J.en n' (.mk .eTry (if carries .eTry then strip as else as)
          (if hidesCode .eTry then ks else treatL J (w.enter .eTry) (fun i => kidTargets ts .plain .eTry as i)
          (fun i => kidRole .plain .eTry as ks.length i) ks)) := by
        split at ha
        · rw [if_neg (by simp [Where.enter, htb])] at ha
          exact ha
        · exact ha
      obtain ⟨ks', rfl, hks'⟩ := hcls ha
      exact hkeep _ _ rfl hks' fun _ => htb
    · have htb' : w.tryBlock = false := by simpa using htb
      obtain ⟨hnev, e, rfl, hyield⟩ := htry rfl htb'
      have hsim := hsim rfl rfl
      have hic : isCallOf J.marker [e] = false := by
        have := hkids rfl rfl
        rw [FallibleL] at this
        obtain ⟨ke, ae, kke⟩ := e
        unfold isCallOf
        split
        · rename_i p t as' ks' ns' heq
          cases heq
          simpa using Fallible.marker this.1 p t rfl
        · rfl
      simp only [hidesCode, Bool.false_eq_true, if_false, treatL] at ha hsim
      rw [if_pos (by simp [ht, Where.enter, hcl, htb', hnev, hic])] at ha
      obtain ⟨v, e', rfl, he⟩ := tryMatch_inv ha
      have hv := hvs.tryMatch
      have h0 := hsim [e'] (.cons he rfl) (by simpa using hv.2)
      rw [show (w.enter .eTry).tryBlock = w.tryBlock from rfl, htb'] at h0
      rw [htb']
      simp only [evalL] at h0
      intro x s
      cases h0 with
      | cons h0 _ =>
        have h0 := h0 (unit M) s
        have hev : eval M J.en (f + 1) (.mk .eTry as [e]) x s =
            Eval.andThen (eval M J.en (f + 1) e (unit M) s) fun v s =>
              if M.fails v then some (.fail v, s)
              else match M.step .eTry [v] s with
                | .done v s => some (.val v, s)
                | .kid _ s | .panic s => some (.panic, s) := by
          rw [eval, evalL, evalL]
          simp only [node, kid, List.getElem?_cons_zero]
          congr 1
        rw [hev]
        by_cases hval : ∃ u s', eval M J.en (f + 1) e (unit M) s = some (.val u, s')
        · obtain ⟨u, s1, hu⟩ := hval
          rw [hu] at h0
          have hu' : eval M J.en (f + 1) e' (unit M) s = some (.val u, s1) := by
            revert h0
            generalize eval M J.en (f + 1) e' (unit M) s = r
            intro h0
            rcases r with _ | ⟨o, s2⟩
            · cases h0
            · obtain ⟨rfl, h0⟩ := h0
              rw [show o = .val u from h0]
          obtain ⟨hok, herr⟩ := eval_tryMatch L (as := if carries .eTry then strip as else as)
            (vn := v) x s u s1 hu'
          rw [hu]
          obtain ⟨u0, rfl | rfl⟩ := hyield (f + 1) (unit M) s u s1 hu
          · rw [hok u0 rfl]
            simp only [Eval.andThen, L.fails_ok, Bool.false_eq_true, if_false, L.tryOk]
            exact (loose_tryRel _).done (by simp)
          · rw [herr u0 rfl]
            simp only [Eval.andThen, M.fails_err, if_true]
            exact ⟨rfl, u0, rfl, v, hv.1, rfl⟩
        · have hne : ∀ u s', eval M J.en (f + 1) e (unit M) s ≠ some (.val u, s') := fun u s' h =>
            hval ⟨u, s', h⟩
          have hne' : ∀ u s', eval M J.en (f + 1) e' (unit M) s ≠ some (.val u, s') := by
            intro u s' h
            rw [h] at h0
            revert h0 hne
            generalize eval M J.en (f + 1) e (unit M) s = r
            intro hne h0
            rcases r with _ | ⟨o, s2⟩
            · cases h0
            · obtain ⟨rfl, h0⟩ := h0
              rcases (loose_tryRel false).inv h0 with h | ⟨_, _, _, h⟩
              · exact hne u _ (by rw [← h])
              · cases h
          rw [eval_tryMatch_other x s hne']
          have : Eval.andThen (eval M J.en (f + 1) e (unit M) s) (fun v s =>
              if M.fails v then some (.fail v, s)
              else match M.step .eTry [v] s with
                | .done v s => some (.val v, s)
                | .kid _ s | .panic s => some (.panic, s)) = eval M J.en (f + 1) e (unit M) s := by
            unfold Eval.andThen
            split
            · rename_i h1; exact absurd h1 (hne _ _)
            · rfl
          rw [this]
          exact h0
  · -- macros
    rename_i p t
    have ha : Alike J.en n' (.mk (.eMacro p t) (if carries (.eMacro p t) then strip as else as) ks) := by
      split at ha
      · rw [if_neg (hmac _ _ rfl)] at ha; exact ha
      · exact ha
    obtain ⟨ks', rfl, hks'⟩ := hcls ha
    exact hkeep _ _ rfl hks' (by simp)
  · obtain ⟨ks', rfl, hks'⟩ := hcls ha
    exact hkeep _ _ rfl hks' (by simp)
  · obtain ⟨ks', rfl, hks'⟩ := hcls ha
    exact hkeep _ _ rfl hks' (by simp)
  · obtain ⟨ks', rfl, hks'⟩ := hcls ha
    exact hkeep _ _ rfl hks' (by simp)
  · obtain ⟨ks', rfl, hks'⟩ := hcls ha
    refine hkeep _ _ rfl hks' fun h => ?_
    subst h; simp_all

theorem jobOf_tries_only {en : Ident} {m : String} {n : Node} (h : (jobOf en m n).tries = true) :
    (jobOf en m n).branches = false ∧ (jobOf en m n).returns = false := by
  have hc : ∀ b, (closureJob en m b).tries = true →
      (closureJob en m b).branches = false ∧ (closureJob en m b).returns = false := by
    intro b; unfold closureJob; split <;> simp
  revert h
  unfold jobOf
  split
  · unfold fnJob
    split
    · simp
    · split <;> simp
    · simp
  · simp [exprJob]
  · unfold jobOfExpr
    split
    · exact hc _
    · simp [exprJob]

theorem desugar_list {J : Job} (hb : J.branches = false) (hret : J.returns = false) (ht : J.tries = true)
    (L : Results M) (f : Nat) : ∀ (ks ks' : List Node) (ts : Nat → List Target) (rs : Nat → Role),
    (∀ i, noneOurs (ts i)) → FallibleL M L.ok J false ks → weighL (isCtor J.en) ks = 0 →
    AlikeL J.en ks' (treatL J {} ts rs ks) → (∀ n ∈ ks', ctorsIn vs J.en n) →
    SimL (fun _ => Desugars M vs) (evalL M J.en (f + 1) ks) (evalL M J.en (f + 1) ks') := by
  intro ks
  induction ks with
  | nil => intro ks' ts rs _ _ _ h _; rw [alikeL_nil h]; exact .nil
  | cons a l ihl =>
    intro ks' ts rs hts hs hc h hvs'
    rw [FallibleL] at hs
    rw [weighL_cons] at hc
    simp only [treatL] at h
    obtain ⟨a', m, rfl, h1, h2⟩ := alikeL_inv h
    simp only [evalL]
    exact .cons (eval_desugar hb hret ht L f a {} _ _ a' rfl (hts 0) hs.1 (by simp only [ctors]; omega) h1
        (hvs' a' (by simp)))
      (ihl m _ _ (fun i => hts _) hs.2 (by omega) h2 fun n hn => hvs' n (by simp [hn]))

/-- Attributed closures. -/
theorem run_expr_tries {en : Ident} {m : String} {e e' : Node} {it : ItemK}
    (ht : (jobOfExpr en m e).tries = true) (hb : (jobOfExpr en m e).branches = false)
    (hret : (jobOfExpr en m e).returns = false)
    (hen : (jobOfExpr en m e).en = en) (L : Results M)
    (hs : Fallible M L.ok (jobOfExpr en m e) false (bodyOf e)) (hc : ctors en e = 0)
    (ha : Alike en e' (treatExpr en m false e)) (hv : ctorsIn vs en e') (f : Nat) (s : S) :
    Agree (Desugars M vs) (run M en (f + 1) (bodyOf e) s)
      (run M en (f + 1) (bodyIn e (inBlock (.mk (.sItem it) [] []) e')) s) := by
  by_cases hcl : ∃ i as b, e = .mk (.eClosure i) as [b]
  · obtain ⟨i, as, b, rfl⟩ := hcl
    simp only [treatExpr] at ha
    obtain ⟨ks, rfl, h1⟩ := Alike.rigid ha (by simp)
    obtain ⟨b', l, rfl, h2, h3⟩ := alikeL_inv h1
    cases alikeL_nil h3
    have := eval_desugar (vs := vs) hb hret ht L f b {} [] _ b' rfl (by intro t h; cases h) hs ?_
      (by rw [hen]; exact h2) (by rw [hen]; exact hv.kids _ List.mem_cons_self) (unit M) s
    · rw [hen] at this
      exact this
    · rw [hen]
      simp only [ctors, weigh_mk, weighL_cons] at hc ⊢
      omega
  · have h2 : jobOfExpr en m e = exprJob en m false := by
      unfold jobOfExpr
      split
      · exact absurd ⟨_, _, _, rfl⟩ hcl
      · rfl
    rw [h2] at ht
    cases ht

/-- The expansion has the outcomes of the original code. -/
theorem run_desugared {env : Env} {traits : List Path} {en : Ident} {m : String} {n out : Node}
    (h : Accepted env traits en m n out) (hs : Simple en m n)
    (ht : (jobOf en m n).tries = true) (L : Results M)
    (hsup : Fallible M L.ok (jobOf en m n) false (startOf n)) (f : Nat) (s : S) :
    Agree (Desugars M (declared en out)) (run M en (f + 1) (startOf n) s)
      (run M en (f + 1) (counterpart n out) s) := by
  have hv := ctorsIn_out h hs.fresh
  obtain ⟨n', h1, -, ho⟩ := h.treated hs
  have hf := hs.fresh
  obtain ⟨hb, hret⟩ := jobOf_tries_only ht
  have hen := jobOf_en en m n
  have hord := hs.ordinary
  clear hs h
  revert hv
  generalize declared en out = vs
  intro hv
  subst ho
  unfold ordinary at hord
  unfold enumDecl at *
  split at hord
  · rename_i semi as e
    cases semi with
    | true => cases ht
    | false =>
      simp only [treatInput, retype] at h1
      obtain ⟨ks, rfl, h2⟩ := Alike.rigid h1 (by simp)
      obtain ⟨e', l, rfl, h3, h4⟩ := alikeL_inv h2
      cases alikeL_nil h4
      have hv' : ctorsIn vs en e' := (((hv.kids _ List.mem_cons_self).kids _
        (List.mem_cons_of_mem _ List.mem_cons_self)).kids _ List.mem_cons_self)
      refine run_expr_tries (e := e) (e' := e') ht hb hret hen L hsup ?_ h3 hv' f s
      simp only [ctors, weigh_mk, weighL_cons] at hf ⊢
      omega
  · rename_i p as e els
    have : ∃ p', retype env.typeAnalysis traits (treatInput en m (.mk (.sLocal p) as (e :: els))) =
        .mk (.sLocal p') as (treatExpr en m false e :: els) := by
      simp only [treatInput]
      unfold retype
      split
      · rename_i heq
        cases heq
        split <;> exact ⟨_, rfl⟩
      · exact ⟨_, rfl⟩
    obtain ⟨p', hp'⟩ := this
    rw [hp'] at h1
    obtain ⟨ks, rfl, h2⟩ := Alike.rigid h1 (by simp)
    obtain ⟨e', l, rfl, h3, h4⟩ := alikeL_inv h2
    have hv' : ctorsIn vs en e' := (((hv.kids _ List.mem_cons_self).kids _
      (List.mem_cons_of_mem _ List.mem_cons_self)).kids _ List.mem_cons_self)
    refine run_expr_tries (e := e) (e' := e') ht hb hret hen L hsup ?_ h3 hv' f s
    simp only [ctors, weigh_mk, weighL_cons] at hf ⊢
    omega
  · rename_i name ret as asb ss
    simp only [treatInput, retype] at h1
    obtain ⟨ks, rfl, h2⟩ := Alike.rigid h1 (by simp)
    obtain ⟨b', l, rfl, h3, h4⟩ := alikeL_inv h2
    cases alikeL_nil h4
    obtain ⟨ss', rfl, h5⟩ := Alike.rigid h3 (by simp)
    simp only [jobOf, startOf, bodyOf, targetOf, counterpart, placeEnum] at *
    revert hb hret ht hen hsup h5
    generalize fnJob en m ret (.mk .block asb ss) = J
    intro ht hsup hb hret hen h5
    subst hen
    rw [Fallible] at hsup
    have hsl := desugar_list (vs := vs) hb hret ht L f ss ss' _ _ (fun _ t h => by cases h)
      (hsup.2.2.2 rfl rfl) ?_ h5
      (fun a ha => (hv.kids _ List.mem_cons_self).kids a (List.mem_cons_of_mem _ ha))
    · have hst := loose_desugars.stmts (M := M) hsl s
      unfold run
      have hne : ss' ≠ [] := by
        intro h0
        subst h0
        have hl := h5.length
        unfold treatBody at hl
        rw [treatL_length] at hl
        simp only [Bool.and_eq_true] at hord
        cases ss with
        | nil => simp [ordinaryBody] at hord
        | cons => cases hl
      simp only [bodyIn]
      have h7 : ∀ it, eval M J.en (f + 1) (.mk (.eBlock none) [] (.mk (.sItem it) [] [] :: ss')) (unit M) s =
          eval M J.en (f + 1) (.mk (.eBlock none) [] ss') (unit M) s := by
        intro it
        cases ss' with
        | nil => exact absurd rfl hne
        | cons a l => simp only [eval, evalL, node, labelled_none, Eval.stmts, Eval.andThen]
      rw [h7]
      simpa only [eval, node, labelled_none] using hst
    · simp only [ctors, weigh_mk, weighL_cons, weighL_nil] at hf ⊢
      omega
  · rename_i h2 h3 h4
    simp only [Bool.and_eq_true] at hord
    have hte := targetOf_expr hord.1
    have hti : treatInput en m n = treatExpr en m false n := by
      unfold treatInput
      split
      · exact absurd rfl (h2 _ _ _)
      · exact absurd rfl (h3 _ _ _ _)
      · exact absurd rfl (h4 _ _ _ _ _)
      · rfl
    have hj : jobOf en m n = jobOfExpr en m n := by
      obtain ⟨k, as, ks⟩ := n
      cases k <;> first | rfl | cases hord.1
    have hx := isExprNode_treatExpr (en := en) (m := m) (semi := false) hord.1
    have hrt : retype env.typeAnalysis traits (treatInput en m n) = treatExpr en m false n := by
      rw [hti]
      revert hx
      generalize treatExpr en m false n = t
      intro hx
      obtain ⟨k, as, ks⟩ := t
      cases k <;> first | rfl | cases hx
    rw [hrt] at h1
    have hx' : isExprNode n' = true := by rw [← isExprNode_alike h1] at hx; exact hx
    have hpl : ∀ g, placeEnum g n' = inBlock g n' := by
      intro g
      obtain ⟨k, as, ks⟩ := n'
      cases k <;> first | rfl | cases hx'
    rw [hpl] at hv ⊢
    unfold counterpart startOf at *
    rw [hte] at hsup ⊢
    rw [hj] at hb hret ht hen hsup
    have hv' : ctorsIn vs en n' :=
      (hv.kids _ (List.mem_cons_of_mem _ List.mem_cons_self)).kids _ List.mem_cons_self
    exact run_expr_tries ht hb hret hen L hsup hf h1 hv' f s

end

end AutoEnums
