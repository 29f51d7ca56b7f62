import Verif.Spec.Eval
import Verif.Lemmas.Forms

/-! # Lemmas: evaluation before and after -/

namespace AutoEnums

open Spec

/-! ## Code that is not run on the spot -/

theorem noAttrs_blur {en : Ident} : ∀ n : Node, ctors en n = 0 → blur en n = n := by
  refine Node.ind (P := fun n => ctors en n = 0 → blur en n = n) ?_
  intro k as ks ih h
  simp only [ctors, weigh_mk] at h
  have hl : ∀ l : List Node, (∀ c ∈ l, c ∈ ks) → weighL (isCtor en) l = 0 → blurL en l = l := by
    intro l
    induction l with
    | nil => intro _ _; rfl
    | cons a l ihl =>
      intro hm hw
      rw [weighL_cons] at hw
      rw [blurL, ih a (hm a (by simp)) (by simp only [ctors]; omega),
        ihl (fun c hc => hm c (by simp [hc])) (by omega)]
  rw [blur, hl ks (fun _ h => h) (by omega)]
  have : blurK en k = k := by
    have h0 : isCtor en (k, as) = 0 := by omega
    unfold blurK
    split
    · rename_i e v
      simp only [isCtor] at h0
      split at h0
      · cases h0
      · rw [if_neg (by assumption)]
    · rfl
  rw [this]

theorem ctors_noAttrs (en : Ident) : ∀ n : Node, ctors en (noAttrs n) = ctors en n := by
  refine Node.ind (P := fun n => ctors en (noAttrs n) = ctors en n) ?_
  intro k as ks ih
  have hl : ∀ l : List Node, (∀ c ∈ l, c ∈ ks) → weighL (isCtor en) (noAttrsL l) = weighL (isCtor en) l := by
    intro l
    induction l with
    | nil => intro _; rfl
    | cons a l ihl =>
      intro hm
      have := ih a (hm a (by simp))
      simp only [ctors] at this
      rw [noAttrsL, weighL_cons, weighL_cons, this, ihl (fun c hc => hm c (by simp [hc]))]
  rw [noAttrs]
  simp only [ctors, weigh_mk]
  rw [hl ks (fun _ h => h), isCtor_attrs en k [] as]

theorem noAttrsL_map : ∀ l : List Node, noAttrsL l = l.map noAttrs
  | [] => rfl
  | a :: l => by rw [noAttrsL, noAttrsL_map l]; rfl

theorem enter_closure {w : Where} (h : w.closure = true) (k : Kind) : (w.enter k).closure = true := by
  cases k <;> simp [Where.enter, h]

/-- Code without markers, `#[nested]` and `return`s keeps its meaning. -/
theorem treat_inert {J : Job} (hJ : J.tries = false) : ∀ (n : Node) (w : Where) (ts : List Target),
    noneOurs ts → (∀ l ∈ visible n, ∀ p t, l.1 = .eMacro p t → p ≠ ⟨false, [⟨J.marker, none⟩]⟩) →
    hasNested [n] = false →
    (w.closure = true ∨ J.returns = false ∨ ∀ l ∈ visible n, l.1 ≠ .eReturn) →
    noAttrs (treat J w ts .plain n) = noAttrs n := by
  refine Node.ind (P := fun n => ∀ (w : Where) (ts : List Target), noneOurs ts →
    (∀ l ∈ visible n, ∀ p t, l.1 = .eMacro p t → p ≠ ⟨false, [⟨J.marker, none⟩]⟩) →
    hasNested [n] = false →
    (w.closure = true ∨ J.returns = false ∨ ∀ l ∈ visible n, l.1 ≠ .eReturn) →
    noAttrs (treat J w ts .plain n) = noAttrs n) ?_
  intro k as ks ih w ts hts hm hn hr
  have hvis : ∀ c ∈ ks, hidesCode k = false → ∀ l ∈ visible c, l ∈ visible (.mk k as ks) := by
    intro c hc hk l hl
    rw [visible, hk]
    simp only [List.mem_cons]
    exact .inr (visibleL_mem hc hl)
  rw [hasNested_mk, Bool.or_eq_false_iff] at hn
  have hro : role J .plain k as ks = .plain := by
    unfold role
    split
    · rfl
    · dsimp only
      rw [if_neg]
      intro h
      simp only [Bool.and_eq_true] at h
      have := hn.1
      rw [Bool.and_eq_false_iff] at this
      rcases this with h' | h'
      · have : carries k = true := by
          unfold carries; split <;> first | rfl | exact h.1.1
        rw [this] at h'; cases h'
      · rw [h.1.2] at h'; cases h'
  rw [treat.eq_def]
  dsimp only
  rw [hro]
  have hkr : ∀ i, kidRole .plain k as ks.length i = .plain := by
    intro i
    have := hn.1
    unfold kidRole
    split <;> first | rfl | (simp [carries] at this; simp [this])
  have hkids : hidesCode k = false → noAttrsL (treatL J (w.enter k) (fun i => kidTargets ts .plain k as i)
      (fun i => kidRole .plain k as ks.length i) ks) = noAttrsL ks := by
    intro hc
    have : ∀ (l : List Node) (ts : Nat → List Target) (rs : Nat → Role), (∀ n ∈ l, n ∈ ks) →
        hasNested l = false → (∀ i, noneOurs (ts i)) → (∀ i, rs i = .plain) →
        noAttrsL (treatL J (w.enter k) ts rs l) = noAttrsL l := by
      intro l
      induction l with
      | nil => intros; rfl
      | cons n ns ih2 =>
        intro ts rs hmem hq hts hrs
        rw [hasNested_cons, Bool.or_eq_false_iff] at hq
        simp only [treatL, noAttrsL]
        rw [hrs 0, ih n (hmem n (by simp)) _ _ (hts 0)
            (fun l hl => hm l (hvis n (hmem n (by simp)) hc l hl)) hq.1 ?_,
          ih2 _ _ (fun n h => hmem n (by simp [h])) hq.2 (fun i => hts _) fun i => hrs _]
        rcases hr with h | h | h
        · exact .inl (enter_closure h k)
        · exact .inr (.inl h)
        · exact .inr (.inr fun l hl => h l (hvis n (hmem n (by simp)) hc l hl))
    refine this ks _ _ (fun _ h => h) ?_ (fun i => hts.kid (by simp)) hkr
    have := hn.2
    rw [← hidesCode_eq, hc] at this
    simpa using this
  have hks : noAttrsL (if hidesCode k then ks
       else treatL J (w.enter k) (fun i => kidTargets ts .plain k as i)
        (fun i => kidRole .plain k as ks.length i) ks) = noAttrsL ks := by
    split
    · rfl
    · exact hkids (by simp_all)
  revert hks
  generalize (if hidesCode k then ks
       else treatL J (w.enter k) (fun i => kidTargets ts .plain k as i)
        (fun i => kidRole .plain k as ks.length i) ks) = ks1
  intro hks
  unfold assemble
  dsimp only
  split
  · rw [if_neg, noAttrs, hks, noAttrs]
    intro h
    simp only [Bool.and_eq_true, Bool.not_eq_true'] at h
    rcases hr with h' | h' | h'
    · rw [enter_closure h'] at h; cases h.1.1.2
    · rw [h'] at h; cases h.1.1.1
    · exact h' _ (by rw [visible]; exact List.mem_cons_self) rfl
  · rw [hits_noneOurs (hts.through _ _)]
    simp only [Bool.false_and, Bool.false_eq_true, if_false, noAttrs, hks]
  · split
    · rw [hJ]; simp only [Bool.false_and, Bool.false_eq_true, if_false, noAttrs, hks]
    · simp only [noAttrs, hks]
  · split
    · rw [if_neg]
      · rfl
      · exact hm _ (by rw [visible]; exact List.mem_cons_self) _ _ rfl
    · rfl
  · simp [noAttrs, hks]
  · simp [noAttrs, hks]
  · simp [noAttrs, hks]
  · simp only [noAttrs, hks]

theorem frozen_alike {J : Job} (hJ : J.tries = false) {w : Where} {ts : List Target} (hts : noneOurs ts)
    {n n' : Node} (hc : ctors J.en n = 0)
    (hm : ∀ l ∈ visible n, ∀ p t, l.1 = .eMacro p t → p ≠ ⟨false, [⟨J.marker, none⟩]⟩)
    (hn : hasNested [n] = false)
    (hr : w.closure = true ∨ J.returns = false ∨ ∀ l ∈ visible n, l.1 ≠ .eReturn)
    (h : Alike J.en n' (treat J w ts .plain n)) : noAttrs n' = noAttrs n := by
  have h1 := treat_inert hJ n w ts hts hm hn hr
  have h2 : ctors J.en (treat J w ts .plain n) = 0 := by rw [← ctors_noAttrs, h1, ctors_noAttrs, hc]
  have h3 : ctors J.en n' = 0 := by rw [h.ctors, h2]
  have h4 : n' = treat J w ts .plain n := by
    have := h
    unfold Alike at this
    rw [noAttrs_blur _ h3, noAttrs_blur _ h2] at this
    exact this
  rw [h4, h1]

/-! ## Agreement -/

section

variable {B S : Type} {M : Machine B S} {vs : List Ident}

open Eval

/-- The meanings agree. -/
def Sim (R : Outcome B → Outcome B → Prop) (d d' : Den B S) : Prop := ∀ x s, Agree R (d x s) (d' x s)

/-- The meanings agree one by one. -/
inductive SimL : (Nat → Outcome B → Outcome B → Prop) → List (Den B S) → List (Den B S) → Prop where
  | nil : SimL R [] []
  | cons : Sim (R 0) d d' → SimL (fun i => R (i + 1)) ds ds' → SimL R (d :: ds) (d' :: ds')

theorem SimL.length {R : Nat → Outcome B → Outcome B → Prop} {ds ds' : List (Den B S)} (h : SimL R ds ds') :
    ds'.length = ds.length := by
  induction h with
  | nil => rfl
  | cons _ _ ih => simp [ih]

theorem SimL.isEmpty {R : Nat → Outcome B → Outcome B → Prop} {ds ds' : List (Den B S)} (h : SimL R ds ds') :
    ds'.isEmpty = ds.isEmpty := by
  cases h <;> rfl

theorem SimL.get {R : Nat → Outcome B → Outcome B → Prop} {ds ds' : List (Den B S)} (h : SimL R ds ds')
    (i : Nat) : (ds[i]? = none ∧ ds'[i]? = none) ∨ ∃ d d', ds[i]? = some d ∧ ds'[i]? = some d' ∧ Sim (R i) d d' := by
  induction h generalizing i with
  | nil => left; simp
  | cons h _ ih =>
    cases i with
    | zero => right; exact ⟨_, _, rfl, rfl, h⟩
    | succ i => simpa using ih i

theorem Agree.imp {R R' : Outcome B → Outcome B → Prop} {r r' : Res B S} (h : Agree R r r')
    (hR : ∀ o o' s, r = some (o, s) → R o o' → R' o o') : Agree R' r r' := by
  cases r with
  | none => cases r' with
    | none => trivial
    | some x => cases h
  | some x =>
    obtain ⟨o, s⟩ := x
    cases r' with
    | none => cases h
    | some y =>
      obtain ⟨o', s'⟩ := y
      exact ⟨h.1, hR _ _ _ rfl h.2⟩

/-- Whatever is not a value is passed on. -/
theorem agree_andThen {b b' ret : Bool} {ts : List Target} {r r' : Res B S} {g g' : Value B → S → Res B S}
    (h : Agree (Wraps vs b ts ret) r r')
    (hg : ∀ v v' s, wrappedIf vs b v v' → Agree (Wraps vs b' ts ret) (g v s) (g' v' s)) :
    Agree (Wraps vs b' ts ret) (andThen r g) (andThen r' g') := by
  rcases r with _ | ⟨o, s⟩ <;> rcases r' with _ | ⟨o', s'⟩ <;> try (cases h; done)
  · trivial
  · obtain ⟨rfl, h⟩ := h
    cases o <;> cases o' <;> first
      | exact hg _ _ _ h
      | exact ⟨rfl, h⟩
      | exact h.elim

theorem agree_val {b ret : Bool} {ts : List Target} {v v' : Value B} {s : S} (h : wrappedIf vs b v v') :
    Agree (Wraps vs b ts ret) (some (.val v, s)) (some (.val v', s)) := ⟨rfl, h⟩

theorem agree_panic {b ret : Bool} {ts : List Target} {s : S} :
    Agree (Wraps (B := B) vs b ts ret) (some (.panic, s)) (some (.panic, s)) := ⟨rfl, trivial⟩

theorem wrappedIf_false {v v' : Value B} : wrappedIf vs false v v' ↔ v' = v := by simp [wrappedIf]

theorem agree_discard {b ret : Bool} {ts : List Target} {r r' : Res B S}
    (h : Agree (Wraps vs b ts ret) r r') : Agree (Wraps vs false ts ret) (discard M r) (discard M r') :=
  agree_andThen h fun _ _ _ _ => agree_val (wrappedIf_false.mpr rfl)

theorem agree_kid {R : Nat → Outcome B → Outcome B → Prop} {ds ds' : List (Den B S)} (h : SimL R ds ds')
    (i : Nat) (hp : R i .panic .panic) (s : S) : Agree (R i) (kid M ds i s) (kid M ds' i s) := by
  unfold kid
  rcases h.get i with ⟨h1, h2⟩ | ⟨d, d', h1, h2, h3⟩
  · rw [h1, h2]; exact ⟨rfl, hp⟩
  · rw [h1, h2]; exact h3 _ _

/-- The relations between the outcomes of kids. -/
abbrev KidsWrap (vs : List Ident) (B : Type) (bs : Nat → Bool) (ts : Nat → List Target) (ret : Bool) :
    Nat → Outcome B → Outcome B → Prop := fun i => Wraps vs (bs i) (ts i) ret

theorem agree_kid' {bs : Nat → Bool} {ts : Nat → List Target} {ret : Bool} {ds ds' : List (Den B S)}
    (h : SimL (KidsWrap vs B bs ts ret) ds ds') (i : Nat) (s : S) :
    Agree (Wraps vs (bs i) (ts i) ret) (kid M ds i s) (kid M ds' i s) :=
  agree_kid h i trivial s

theorem agree_other {ret : Bool} {ts : List Target} {k : Kind} {ds ds' : List (Den B S)}
    (h : SimL (KidsWrap vs B (fun _ => false) (fun _ => ts) ret) ds ds') (f : Nat) :
    ∀ us s, Agree (Wraps vs false ts ret) (other M k ds f us s) (other M k ds' f us s) := by
  induction f with
  | zero => intro us s; trivial
  | succ f ih =>
    intro us s
    unfold other
    cases M.step k us s with
    | done v s => exact agree_val (wrappedIf_false.mpr rfl)
    | panic s => exact agree_panic
    | kid i s =>
      dsimp only
      refine agree_andThen (agree_kid' h i s) fun v v' s hv => ?_
      rw [wrappedIf_false] at hv
      subst hv
      exact ih _ _

theorem agree_first {ret : Bool} {ts : List Target} {k : Kind} {ds ds' : List (Den B S)}
    (h : SimL (KidsWrap vs B (fun _ => false) (fun _ => ts) ret) ds ds') (f : Nat) (s : S) :
    Agree (Wraps vs false ts ret) (first M k ds f s) (first M k ds' f s) := by
  unfold first
  rw [h.isEmpty]
  split
  · exact agree_other h f [] s
  · refine agree_andThen (agree_kid' h 0 s) fun v v' s hv => ?_
    rw [wrappedIf_false.mp hv]
    exact agree_other h f [v] s

/-- A block whose last statement may be wrapped. -/
theorem agree_stmts {b ret : Bool} {ts : List Target} : ∀ {ds ds' : List (Den B S)} {bs : Nat → Bool},
    SimL (KidsWrap vs B bs (fun _ => ts) ret) ds ds' → (∀ i, i + 1 = ds.length → bs i = b) →
    (ds = [] → b = false) →
    ∀ s, Agree (Wraps vs b ts ret) (stmts M ds s) (stmts M ds' s) := by
  intro ds
  induction ds with
  | nil =>
    intro ds' bs h _ hb s
    cases h
    rw [hb rfl]
    exact agree_val (wrappedIf_false.mpr rfl)
  | cons d ds ih =>
    intro ds' bs h hb _ s
    cases h with
    | cons h1 h2 =>
      cases h2 with
      | nil =>
        have := h1 (unit M) s
        rw [show KidsWrap vs B bs (fun _ => ts) ret 0 = Wraps vs (bs 0) ts ret from rfl, hb 0 rfl] at this
        exact this
      | cons h3 h4 =>
        simp only [stmts]
        refine agree_andThen (b := bs 0) (h1 _ _) fun _ _ s _ => ?_
        exact ih (bs := fun i => bs (i + 1)) (.cons h3 h4) (fun i hi => hb (i + 1) (by simpa using hi))
          (by simp) s

theorem agree_arms {b ret : Bool} {ts : List Target} {v : Value B} : ∀ {ds ds' : List (Den B S)},
    SimL (KidsWrap vs B (fun _ => b) (fun _ => ts) ret) ds ds' →
    ∀ s, Agree (Wraps vs b ts ret) (arms v ds s) (arms v ds' s) := by
  intro ds
  induction ds with
  | nil => intro ds' h s; cases h; exact agree_panic
  | cons d ds ih =>
    intro ds' h s
    cases h with
    | cons h1 h2 =>
      have h1 := h1 v s
      have ih := fun s => ih h2 s
      simp only [arms]
      revert h1
      generalize d v s = r
      rename_i d' ds'
      generalize d' v s = r'
      intro h1
      rcases r with _ | ⟨o, s⟩ <;> rcases r' with _ | ⟨o', s'⟩ <;> try (cases h1; done)
      · trivial
      · obtain ⟨rfl, h1⟩ := h1
        cases o <;> cases o' <;> first
          | exact ih _
          | exact ⟨rfl, h1⟩
          | exact h1.elim

/-- A round of a loop whose breaks have values that are wrapped if `o`. -/
theorem agree_round {b o ret : Bool} {ts : List Target} {l : Option String} {r r' : Res B S}
    {next next' : S → Res B S} {leave leave' : Value B → S → Res B S} {b' : Bool}
    (h : Agree (Wraps vs b (⟨l, true, o⟩ :: ts) ret) r r')
    (hn : ∀ s, Agree (Wraps vs b' ts ret) (next s) (next' s))
    (hl : ∀ v v' s, wrappedIf vs o v v' → Agree (Wraps vs b' ts ret) (leave v s) (leave' v' s)) :
    Agree (Wraps vs b' ts ret) (round l r next leave) (round l r' next' leave') := by
  rcases r with _ | ⟨x, s⟩ <;> rcases r' with _ | ⟨x', s'⟩ <;> try (cases h; done)
  · trivial
  · obtain ⟨rfl, h⟩ := h
    cases x <;> cases x' <;> try (first | exact hn _ | exact ⟨rfl, h⟩ | exact h.elim)
    · rename_i lb v lb' v'
      obtain ⟨rfl, h⟩ := h
      simp only [round]
      by_cases ha : about l lb' = true
      · rw [if_pos ha, if_pos ha]
        apply hl
        cases lb' with
        | none => exact h
        | some z =>
          simp only [about, Bool.or_eq_true, decide_eq_true_eq, reduceCtorEq, false_or] at ha
          simp only [hits] at h
          rw [if_pos ha.symm] at h
          exact h
      · rw [if_neg ha, if_neg ha]
        refine ⟨rfl, rfl, ?_⟩
        cases lb' with
        | none => exact absurd rfl ha
        | some z =>
          simp only [about, Bool.or_eq_true, decide_eq_true_eq, reduceCtorEq, false_or] at ha
          simp only [hits] at h
          rw [if_neg fun h => ha h.symm] at h
          exact h
    · rename_i lb lb'
      cases h
      simp only [round]
      split
      · exact hn _
      · exact ⟨rfl, rfl⟩

end

end AutoEnums
