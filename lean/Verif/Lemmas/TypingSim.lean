import Verif.Lemmas.TypingMark

/-! # Lemmas: types before and after -/

namespace AutoEnums

open Spec

section

variable {T Sc : Type} {R : Rules T Sc} {G : Generated T} {J : Job}

open TypeRules

/-! ## Surroundings before and after -/

/-- The loops and labelled blocks around an expression, before and after. -/
inductive SameTargets (E : T) : List Target → List (Option String × Bool × Want T) →
    List (Option String × Bool × Want T) → Prop where
  | outer {a b : List (Option String × Bool × Want T)}
      (h : ∀ l u, findTarget a l = some u → ∃ u', findTarget b l = some u' ∧ Want.le u u') : SameTargets E [] a b
  | ours {ts a b} (l : Option String) (i : Bool) : SameTargets E ts a b →
      SameTargets E (⟨l, i, true⟩ :: ts) ((l, i, .free) :: a) ((l, i, .is E) :: b)
  | other {ts a b} (l : Option String) (i : Bool) {u u' : Want T} (h : Want.le u u') : SameTargets E ts a b →
      SameTargets E (⟨l, i, false⟩ :: ts) ((l, i, u) :: a) ((l, i, u') :: b)

theorem SameTargets.refl (E : T) (a : List (Option String × Bool × Want T)) : SameTargets E [] a a :=
  .outer fun _ u hu => ⟨u, hu, .inr rfl⟩

theorem SameTargets.find {E : T} {ts : List Target} {a b : List (Option String × Bool × Want T)}
    (h : SameTargets E ts a b) {l : Option String} {u : Want T} (hu : findTarget a l = some u) :
    ∃ u', findTarget b l = some u' ∧ if hits ts l then u' = .is E else Want.le u u' := by
  induction h with
  | outer h =>
    obtain ⟨u', h1, h2⟩ := h l u hu
    exact ⟨u', h1, by cases l <;> exact h2⟩
  | ours lb i _ ih =>
    cases l with
    | none =>
      simp only [findTarget, hits] at hu ⊢
      cases i with
      | true => exact ⟨_, rfl, rfl⟩
      | false => exact ih hu
    | some x =>
      simp only [findTarget, hits] at hu ⊢
      by_cases hx : lb = some x
      · rw [if_pos hx, if_pos hx]; exact ⟨_, rfl, rfl⟩
      · rw [if_neg hx] at hu ⊢
        rw [if_neg hx]
        exact ih hu
  | other lb i hle _ ih =>
    cases l with
    | none =>
      simp only [findTarget, hits] at hu ⊢
      cases i with
      | true => cases hu; exact ⟨_, rfl, hle⟩
      | false => exact ih hu
    | some x =>
      simp only [findTarget, hits] at hu ⊢
      by_cases hx : lb = some x
      · rw [if_pos hx] at hu
        cases hu
        rw [if_pos hx, if_pos hx]
        exact ⟨_, rfl, hle⟩
      · rw [if_neg hx] at hu ⊢
        rw [if_neg hx]
        exact ih hu

theorem shut_le_self (u : Want T) : Want.le u.shut u := by
  cases u with
  | is t => exact .inr rfl
  | free => exact .inl rfl
  | never => exact .inl rfl

theorem shut_le_of {u v : Want T} (h : Want.le u v) : Want.le u.shut v := by
  rcases h with rfl | rfl
  · exact .inl rfl
  · exact shut_le_self _

/-- Under `#[never]`, no `break` is wrapped. -/
theorem SameTargets.shut {E : T} {ts : List Target} {a b : List (Option String × Bool × Want T)}
    (h : SameTargets E ts a b) :
    SameTargets E (ts.map ({ · with ours := false })) (a.map fun t => (t.1, t.2.1, t.2.2.shut)) b := by
  induction h with
  | outer h =>
    refine .outer fun l v hv => ?_
    obtain ⟨u, hu, rfl⟩ := find_shut hv
    obtain ⟨u', h1, h2⟩ := h l u hu
    exact ⟨u', h1, shut_le_of h2⟩
  | ours l i _ ih => exact .other l i (.inl rfl) ih
  | other l i h _ ih => exact .other l i (shut_le_of h) ih

/-- The surroundings before and after. -/
structure Moved (J : Job) (E : T) (ts : List Target) (Γ Γ' : Around T Sc) : Prop where
  targets : SameTargets E ts Γ.targets Γ'.targets
  ret : if J.returns then Γ'.ret = .is E ∧ (Γ.ret = .free ∨ Γ.ret = .never) else Want.le Γ.ret Γ'.ret
  answer : ∀ q, Γ.answer = some q → Γ'.answer = some q
  tries : Γ'.tries = Γ.tries
  here : Γ'.here = Γ.here

theorem Moved.enter {E : T} {ts : List Target} {Γ Γ' : Around T Sc} (h : Moved J E ts Γ Γ') (l : Option String)
    (i : Bool) (u : Want T) : Moved J E (⟨l, i, false⟩ :: ts) (Γ.enter l i u) (Γ'.enter l i u) :=
  ⟨.other l i (.inr rfl) h.targets, h.ret, h.answer, h.tries, h.here⟩

theorem Moved.enterOurs {E : T} {ts : List Target} {Γ Γ' : Around T Sc} (h : Moved J E ts Γ Γ') (l : Option String)
    (i : Bool) : Moved J E (⟨l, i, true⟩ :: ts) (Γ.enter l i .free) (Γ'.enter l i (.is E)) :=
  ⟨.ours l i h.targets, h.ret, h.answer, h.tries, h.here⟩

theorem Moved.on {E : T} {ts : List Target} {Γ Γ' : Around T Sc} (h : Moved J E ts Γ Γ') (t : T) :
    Moved J E ts (Γ.on t) (Γ'.on t) := ⟨h.targets, h.ret, h.answer, h.tries, by rw [Around.on, Around.on, h.here]⟩

theorem Moved.within {E : T} {ts : List Target} {Γ Γ' : Around T Sc} (h : Moved J E ts Γ Γ') (s : Sc) :
    Moved J E ts (Γ.within s) (Γ'.within s) :=
  ⟨h.targets, h.ret, h.answer, h.tries, by rw [Around.within, Around.within, h.here]⟩

theorem Moved.before {E : T} {ts : List Target} {Γ Γ' : Around T Sc} (h : Moved J E ts Γ Γ') (s : Sc) :
    Moved J E ts (Γ.before s) (Γ'.before s) :=
  ⟨h.targets, h.ret, h.answer, h.tries, by rw [Around.before, Around.before, h.here]⟩

theorem Moved.inside {E : T} {ts : List Target} {Γ Γ' : Around T Sc} (h : Moved J E ts Γ Γ') :
    Moved J E ts Γ.inside Γ'.inside :=
  ⟨h.targets, h.ret, h.answer, h.tries, by rw [Around.inside, Around.inside, h.here]⟩

theorem Moved.withTries {E : T} {ts : List Target} {Γ Γ' : Around T Sc} (h : Moved J E ts Γ Γ') (t : T) :
    Moved J E ts { Γ with tries := some t } { Γ' with tries := some t } := ⟨h.targets, h.ret, fun _ => id, rfl, h.here⟩

theorem Moved.shut {E : T} {ts : List Target} {Γ Γ' : Around T Sc} (h : Moved J E ts Γ Γ') (k : Kind) :
    Moved J E (ts.map ({ · with ours := false })) (Γ.shut k) Γ' := by
  refine ⟨h.targets.shut, ?_, ?_, h.tries, h.here⟩
  · have hr := h.ret
    have h1 : (Γ.shut k).ret = Γ.ret ∨ (Γ.shut k).ret = Γ.ret.shut := by
      cases k <;> first | exact .inl rfl | exact .inr rfl
    split
    · rw [if_pos (by assumption)] at hr
      refine ⟨hr.1, ?_⟩
      rcases h1 with h1 | h1 <;> rw [h1]
      · exact hr.2
      · rcases hr.2 with h2 | h2 <;> rw [h2] <;> exact .inr rfl
    · rw [if_neg (by assumption)] at hr
      rcases h1 with h1 | h1 <;> rw [h1]
      · exact hr
      · exact shut_le_of hr
  · intro q hq
    rw [answer_shut] at hq
    exact h.answer q hq

/-! ## Nodes that stay -/

/-- What has a type keeps it. -/
def Typed (J : Job) (E : T) (ts : List Target) (d d' : Judge T Sc) : Prop :=
  ∀ Γ Γ' w, Moved J E ts Γ Γ' → d Γ w → d' Γ' w

/-- The same one by one. -/
inductive PairL {A : Type} : (Nat → A → A → Prop) → List A → List A → Prop where
  | nil {P : Nat → A → A → Prop} : PairL P [] []
  | cons {P : Nat → A → A → Prop} {a a' : A} {l l' : List A} : P 0 a a' →
      PairL (fun i => P (i + 1)) l l' → PairL P (a :: l) (a' :: l')

theorem PairL.get {A : Type} {P : Nat → A → A → Prop} {l l' : List A} (h : PairL P l l') (i : Nat) :
    (l[i]? = none ∧ l'[i]? = none) ∨ ∃ a a', l[i]? = some a ∧ l'[i]? = some a' ∧ P i a a' := by
  induction h generalizing i with
  | nil => left; simp
  | cons h _ ih =>
    cases i with
    | zero => right; exact ⟨_, _, rfl, rfl, h⟩
    | succ i => simpa using ih i

theorem PairL.imp {A : Type} {P Q : Nat → A → A → Prop} {l l' : List A} (h : PairL P l l')
    (hPQ : ∀ i a a', P i a a' → Q i a a') : PairL Q l l' := by
  induction h generalizing Q with
  | nil => exact .nil
  | cons h _ ih => exact .cons (hPQ _ _ _ h) (ih fun i a a' => hPQ (i + 1) a a')

theorem PairL.isEmpty {A : Type} {P : Nat → A → A → Prop} {l l' : List A} (h : PairL P l l') :
    l'.isEmpty = l.isEmpty := by cases h <;> rfl

theorem PairL.mem {A : Type} {P : A → A → Prop} {l l' : List A} (h : PairL (fun _ => P) l l') {a' : A}
    (ha : a' ∈ l') : ∃ a ∈ l, P a a' := by
  generalize hQ : (fun _ : Nat => P) = Q at h
  induction h with
  | nil => cases ha
  | cons h _ ih =>
    subst hQ
    rcases List.mem_cons.mp ha with rfl | ha
    · exact ⟨_, by simp, h⟩
    · obtain ⟨b, hb, hp⟩ := ih ha rfl
      exact ⟨b, by simp [hb], hp⟩

variable {E : T}

theorem keeps_kid {tss : Nat → List Target} {ds ds' : List (Judge T Sc)}
    (h : PairL (fun i => Typed J E (tss i)) ds ds') (i : Nat) : Typed J E (tss i) (kid ds i) (kid ds' i) := by
  intro Γ Γ' w hΓ
  unfold kid
  rcases h.get i with ⟨h1, h2⟩ | ⟨d, d', h1, h2, h3⟩
  · rw [h1, h2]; exact id
  · rw [h1, h2]; exact h3 _ _ _ hΓ

theorem keeps_each {ts : List Target} {d d' : Judge T Sc} (h : Typed J E ts d d') :
    Typed J E ts (each d) (each d') := by
  intro Γ Γ' w hΓ
  unfold each
  split
  · rintro ⟨t, ht⟩; exact ⟨t, h _ _ _ hΓ ht⟩
  · exact h _ _ _ hΓ

/-- A block whose last statement changes. -/
theorem stmts_last {ts : List Target} {w w' : Want T} :
    ∀ {ds ds' : List (Judge T Sc)} {P : Nat → Judge T Sc → Judge T Sc → Prop} {Γ Γ' : Around T Sc},
    Moved J E ts Γ Γ' → PairL P ds ds' →
    (∀ i d d', i + 1 < ds.length → P i d d' → Typed J E ts d d') →
    (∀ i d d', i + 1 = ds.length → P i d d' → ∀ Γ Γ', Moved J E ts Γ Γ' → d Γ w → d' Γ' w') →
    (ds = [] → w.accepts R.unit → w'.accepts R.unit) →
    stmts R ds Γ w → stmts R ds' Γ' w' := by
  intro ds
  induction ds with
  | nil => intro ds' P Γ Γ' hΓ h _ _ h0 hs; cases h; exact h0 rfl hs
  | cons d ds ih =>
    intro ds' P Γ Γ' hΓ h hk hl _ hs
    cases h with
    | cons h1 h2 =>
      cases h2 with
      | nil => exact hl 0 _ _ rfl h1 _ _ hΓ hs
      | cons h3 h4 =>
        obtain ⟨s, hs1, hs2⟩ := hs
        refine ⟨s, hk 0 _ _ (by simp) h1 _ _ _ (hΓ.before s) hs1,
          ih (P := fun i => P (i + 1)) (hΓ.within s) (.cons h3 h4) ?_ ?_ (by simp) hs2⟩
        · exact fun i d d' hi => hk (i + 1) d d' (by simpa using hi)
        · exact fun i d d' hi => hl (i + 1) d d' (by simpa using hi)

theorem keeps_stmts {ts : List Target} {ds ds' : List (Judge T Sc)} (h : PairL (fun _ => Typed J E ts) ds ds') :
    Typed J E ts (stmts R ds) (stmts R ds') := fun _ _ _ hΓ =>
  stmts_last hΓ h (fun _ _ _ _ hp => hp) (fun _ _ _ _ hp _ _ hΓ => hp _ _ _ hΓ) (fun _ => id)

theorem keeps_kinds {ts : List Target} {Γ Γ' : Around T Sc} (hΓ : Moved J E ts Γ Γ') :
    ∀ {ds ds' : List (Judge T Sc)} {us : List T}, PairL (fun _ => Typed J E ts) ds ds' → kinds ds Γ us → kinds ds' Γ' us
  | [], _, [], h, _ => by cases h; trivial
  | d :: ds, _, u :: us, h, hk => by
    cases h with
    | cons h1 h2 => exact ⟨h1 _ _ _ hΓ hk.1, keeps_kinds hΓ h2 hk.2⟩
  | [], _, _ :: _, _, hk => hk.elim
  | _ :: _, _, [], _, hk => hk.elim

theorem keeps_other {ts : List Target} {k : Kind} {ds ds' : List (Judge T Sc)}
    (h : PairL (fun _ => Typed J E ts) ds ds') : Typed J E ts (other R k ds) (other R k ds') := by
  rintro Γ Γ' w hΓ ⟨us, h1, h2⟩
  exact ⟨us, keeps_kinds hΓ h h1, by rw [hΓ.here]; exact h2⟩

theorem keeps_freeze {ts : List Target} {k : Kind} {ks ks' : List Node} (h : noAttrsL ks' = noAttrsL ks) :
    Typed J E ts (freeze R k ks) (freeze R k ks') := by
  rintro Γ Γ' w hΓ hf
  unfold freeze at hf ⊢
  rw [h, hΓ.here]
  exact hf

theorem keeps_value {ts : List Target} {ds ds' : List (Judge T Sc)} (h : PairL (fun _ => Typed J E ts) ds ds') :
    Typed J E ts (value R ds) (value R ds') := by
  intro Γ Γ' u hΓ hv
  unfold value at hv ⊢
  rw [h.isEmpty]
  split
  · rw [if_pos (by assumption)] at hv; exact hv
  · rw [if_neg (by assumption)] at hv
    exact keeps_each (keeps_kid h 0) _ _ _ hΓ hv

theorem value_le {ds : List (Judge T Sc)} (hnv : ∀ d ∈ ds, ∀ Γ w, d Γ .never → d Γ w) {Γ : Around T Sc} {u u' : Want T}
    (hu : Want.le u u') (hv : value R ds Γ u) : value R ds Γ u' := by
  rcases hu with rfl | rfl
  · unfold value at hv ⊢
    split
    · rw [if_pos (by assumption)] at hv; exact hv.elim
    · rw [if_neg (by assumption)] at hv
      cases ds with
      | nil => rename_i h; exact absurd rfl h
      | cons d ds =>
        have h := hnv d (by simp) Γ
        cases u' with
        | is t => exact h _ hv
        | free => exact ⟨R.unit, h _ hv⟩
        | never => exact hv
  · exact hv

/-- A node that stays what it is and is not wrapped. -/
theorem node_keeps {ts0 ts : List Target} {k : Kind} {as : List Attr} {ks ks' : List Node} {ds ds' : List (Judge T Sc)}
    (hth : through ts0 k as = ts)
    (hk : hidesCode k = false → isFrozen k = false →
      PairL (fun i => Typed J E (kidTargets ts0 .plain k as i)) ds ds')
    (hnv : ∀ d ∈ ds', ∀ Γ w, d Γ .never → d Γ w)
    (hbrk : ∀ l, k = .eBreak l → hits ts l = false)
    (hfr : hidesCode k = true ∨ isFrozen k = true → noAttrsL ks' = noAttrsL ks)
    (hcon : k = .eCall → constructed G.name ks' = constructed G.name ks)
    (hif : k = .eIf → isIf ks'[2]? = isIf ks[2]?)
    {Γ Γ' : Around T Sc} {w : Want T} (hΓ : Moved J E ts Γ Γ') (hret : k = .eReturn → Want.le Γ.ret Γ'.ret)
    (hd : node R G k ks ds Γ w) : node R G k ks' ds' Γ' w := by
  by_cases hoth : isSimple k = true
  · have : ∀ ks ds Γ w, node R G k ks ds Γ w = other R k ds Γ w := by
      intro ks ds Γ w; cases k <;> first | rfl | cases hoth
    rw [this] at hd ⊢
    have h2 := (kids_other (ts := ts0) (as := as) (n := ks.length) (isSimple_other hoth)).2
    refine keeps_other ((hk ?_ ?_).imp fun i a a' h => ?_) _ _ _ hΓ hd
    · cases k <;> first | rfl | cases hoth
    · cases k <;> first | rfl | cases hoth
    · rw [h2, hth] at h; exact h
  have hp : hidesCode k = false → isFrozen k = false → (∀ i, kidTargets ts0 .plain k as i = through ts0 k as) →
      PairL (fun _ => Typed J E ts) ds ds' := by
    intro h1 h2 h3
    refine (hk h1 h2).imp fun i a a' h => ?_
    rw [h3, hth] at h
    exact h
  cases k <;> try (exact absurd rfl hoth)
  case block => exact keeps_stmts (hp rfl rfl fun _ => rfl) _ _ _ hΓ hd
  case eUnsafe => exact keeps_stmts (hp rfl rfl fun _ => rfl) _ _ _ hΓ hd
  case eConst => exact keeps_stmts (hp rfl rfl fun _ => rfl) _ _ _ hΓ hd
  case eBlock l =>
    cases l with
    | none => exact keeps_stmts (hp rfl rfl fun _ => rfl) _ _ _ hΓ hd
    | some l =>
      have h := hk rfl rfl
      simp only [kidTargets, hth] at h
      exact keeps_stmts h _ _ _ (hΓ.enter _ _ _) hd
  case sExpr semi =>
    have h := keeps_kid (hp rfl rfl fun i => by cases semi <;> rfl) 0
    cases semi with
    | false => exact h _ _ _ hΓ hd
    | true =>
      rcases hd with hd | ⟨⟨t, hd⟩, ha⟩
      · exact .inl (h _ _ _ hΓ hd)
      · exact .inr ⟨⟨t, h _ _ _ hΓ hd⟩, ha⟩
  case eParen => exact keeps_kid (hp rfl rfl fun _ => rfl) 0 _ _ _ hΓ hd
  case eGroup => exact keeps_kid (hp rfl rfl fun _ => rfl) 0 _ _ _ hΓ hd
  case sLocal p =>
    have h := hp rfl rfl fun _ => rfl
    obtain ⟨t, s, h3, h4, hd⟩ := hd
    refine ⟨t, s, by rw [hΓ.here]; exact h3, by rw [leaves_eq hΓ.here]; exact h4, ?_⟩
    cases h with
    | nil => exact hd
    | cons h1 h2 =>
      obtain ⟨h3, h5, h6⟩ := hd
      refine ⟨h1 _ _ _ hΓ.inside h3, fun e he => ?_, h6.imp (h1 _ _ _ hΓ.inside) id⟩
      obtain ⟨e0, he0, hke⟩ := h2.mem he
      exact hke _ _ _ hΓ.inside (h5 e0 he0)
  case eLet p =>
    obtain ⟨t, s, h1, h2, h3, h4⟩ := hd
    exact ⟨t, s, keeps_kid (hp rfl rfl fun _ => rfl) 0 _ _ _ hΓ.inside h1, by rw [hΓ.here]; exact h2,
      by rw [leaves_eq hΓ.here]; exact h3, h4⟩
  case eBinary op =>
    have h := hp rfl rfl fun _ => rfl
    simp only [node] at hd ⊢
    split
    · rw [if_pos (by assumption)] at hd
      obtain ⟨s, h1, h2, h3⟩ := hd
      exact ⟨s, keeps_kid h 0 _ _ _ (hΓ.before s) h1, keeps_kid h 1 _ _ _ (hΓ.within s) h2, h3⟩
    · rw [if_neg (by assumption)] at hd
      exact keeps_other h _ _ _ hΓ hd
  case sItem => exact hd
  case eMatch =>
    have h := hp rfl rfl fun _ => rfl
    obtain ⟨t, h1, h2⟩ := hd
    refine ⟨t, keeps_kid h 0 _ _ _ hΓ h1, fun d hd => ?_⟩
    cases h with
    | nil => cases hd
    | cons _ h =>
      obtain ⟨d0, hd0, hkd⟩ := h.mem hd
      exact keeps_each hkd _ _ _ (hΓ.on t) (h2 d0 hd0)
  case arm p =>
    have h := hp rfl rfl fun _ => rfl
    obtain ⟨s, h1, h2⟩ := hd
    refine ⟨s, by rw [hΓ.here]; exact h1, ?_⟩
    cases h with
    | nil => exact h2
    | cons h3 h => cases h with
      | nil => exact h3 _ _ _ (hΓ.within s) h2
      | cons h4 h => cases h with
        | nil =>
          obtain ⟨s', h2, h5⟩ := h2
          exact ⟨s', h3 _ _ _ ((hΓ.within s).before s') h2, h4 _ _ _ (hΓ.within s') h5⟩
        | cons => exact h2
  case eIf =>
    have h := hp rfl rfl fun _ => rfl
    have hif := hif rfl
    obtain ⟨s, h0, hd⟩ := hd
    refine ⟨s, keeps_kid h 0 _ _ _ (hΓ.before s) h0, ?_⟩
    rw [hif]
    cases h with
    | nil => exact hd
    | cons h3 h => cases h with
      | nil => exact hd
      | cons h4 h => cases h with
        | nil => exact ⟨h4 _ _ _ (hΓ.within s) hd.1, hd.2⟩
        | cons h5 h => cases h with
          | nil =>
            refine ⟨keeps_each h4 _ _ _ (hΓ.within s) hd.1, ?_⟩
            have h6 := hd.2
            split
            · rw [if_pos (by assumption)] at h6
              exact h5 _ _ _ hΓ h6
            · rw [if_neg (by assumption)] at h6
              exact keeps_each h5 _ _ _ hΓ h6
          | cons => exact hd
  case eLoop l =>
    have h := hk rfl rfl
    simp only [kidTargets, hth] at h
    exact keeps_kid h 0 _ _ _ (hΓ.enter _ _ _) hd
  case eWhile l =>
    have h := hk rfl rfl
    simp only [kidTargets, hth] at h
    obtain ⟨s, h1, h2, h3⟩ := hd
    exact ⟨s, keeps_kid h 0 _ _ _ ((hΓ.enter _ _ _).before s) h1,
      keeps_kid h 1 _ _ _ ((hΓ.enter _ _ _).within s) h2, h3⟩
  case eForLoop l p =>
    have h := hk rfl rfl
    simp only [kidTargets, hth] at h
    obtain ⟨t, s, h1, h2, h3, h4⟩ := hd
    have h0 := keeps_kid h 0
    have h5 := keeps_kid h 1
    exact ⟨t, s, h0 _ _ _ hΓ h1, by rw [hΓ.here]; exact h2, h5 _ _ _ ((hΓ.enter _ _ _).within s) h3, h4⟩
  case eBreak l =>
    obtain ⟨u, h1, h2⟩ := hd
    obtain ⟨u', h3, h4⟩ := hΓ.targets.find h1
    rw [hbrk l rfl] at h4
    exact ⟨u', h3, value_le hnv h4 (keeps_value (hp rfl rfl fun _ => rfl) _ _ _ hΓ h2)⟩
  case eContinue => trivial
  case eReturn =>
    simp only [node] at hd ⊢
    exact value_le hnv (hret rfl) (keeps_value (hp rfl rfl fun _ => rfl) _ _ _ hΓ hd)
  case eTry =>
    obtain ⟨t, q, h1, h2, h3⟩ := hd
    exact ⟨t, q, keeps_kid (hp rfl rfl fun _ => rfl) 0 _ _ _ hΓ h1, hΓ.answer _ h2, h3⟩
  case eTryBlock =>
    obtain ⟨t, u, h1, h2, h3⟩ := hd
    exact ⟨t, u, keeps_stmts (hp rfl rfl fun _ => rfl) _ _ _ (hΓ.withTries u) h1, by rw [hΓ.here]; exact h2, h3⟩
  case eMacro p t =>
    simp only [node] at hd ⊢
    split
    · trivial
    · rw [if_neg (by assumption)] at hd
      exact keeps_freeze (hfr (.inl rfl)) _ _ _ hΓ hd
  case sMacro p t =>
    simp only [node] at hd ⊢
    split
    · trivial
    · rw [if_neg (by assumption)] at hd
      exact keeps_freeze (hfr (.inl rfl)) _ _ _ hΓ hd
  case eClosure => exact keeps_freeze (hfr (.inr rfl)) _ _ _ hΓ hd
  case eAsync => exact keeps_freeze (hfr (.inr rfl)) _ _ _ hΓ hd
  case eVerbatim => exact keeps_freeze (hfr (.inl rfl)) _ _ _ hΓ hd
  case eTuple =>
    have h := hp rfl rfl fun _ => rfl
    simp only [node] at hd ⊢
    rw [h.isEmpty]
    split
    · rw [if_pos (by assumption)] at hd; exact hd
    · rw [if_neg (by assumption)] at hd
      exact keeps_other h _ _ _ hΓ hd
  case ePath q p =>
    simp only [node] at hd ⊢
    split
    · rw [if_pos (by assumption)] at hd; exact hd
    · rw [if_neg (by assumption)] at hd
      exact keeps_other (hp rfl rfl fun _ => rfl) _ _ _ hΓ hd
  case eCall =>
    have h := hp rfl rfl fun _ => rfl
    simp only [node] at hd ⊢
    rw [hcon rfl]
    split at hd
    · obtain ⟨t, h1, h2, h3⟩ := hd
      exact ⟨t, keeps_kid h 1 _ _ _ hΓ h1, h2, h3⟩
    · exact keeps_other h _ _ _ hΓ hd
  case eMethodCall => exact keeps_other (hp rfl rfl fun _ => rfl) _ _ _ hΓ hd

/-! ## What is kept -/

/-- Nodes other than markers keep their kind. -/
theorem kind_kept (hJ : J.tries = false) {w : Where} {ts : List Target} {r : Role} {k : Kind} {as : List Attr}
    {ks : List Node} {n' : Node} (hm : callsMacro J.marker k = false) (hc : isCtor J.en (k, as) = 0)
    (h : Alike J.en n' (treat J w ts r (.mk k as ks))) : n'.kind = k := by
  have h2 : (treat J w ts r (.mk k as ks)).kind = k := by
    rw [treat.eq_def]
    unfold assemble
    dsimp only
    split
    · split <;> rfl
    · split <;> rfl
    · split
      · rw [hJ]; rfl
      · rfl
    · split
      · rw [if_neg]
        · rfl
        · rintro rfl
          rw [callsMacro_iff.mpr ⟨_, rfl⟩] at hm
          cases hm
      · rfl
    all_goals rfl
  revert h2 h
  generalize treat J w ts r (.mk k as ks) = t
  obtain ⟨tk, tas, tks⟩ := t
  intro h hk
  simp only [Node.kind] at hk
  subst hk
  obtain ⟨k', ks', rfl, h1, h2⟩ := h.inv
  rw [kind_of_blur (as := as) hc h1]
  rfl

/-- Markers become calls of constructors. -/
theorem marker_kind {w : Where} {ts : List Target} {r : Role} {k : Kind} {as : List Attr}
    {ks : List Node} {n' : Node} (hm : callsMacro J.marker k = true)
    (h : Alike J.en n' (treat J w ts r (.mk k as ks))) : (∃ p t, n'.kind = .eMacro p t) ∨ n'.kind = .eCall := by
  obtain ⟨t, rfl⟩ := callsMacro_iff.mp hm
  rw [treat.eq_def] at h
  simp only [assemble] at h
  split at h
  · obtain ⟨v, y, rfl, -⟩ := ctor_inv (by simpa using h)
    exact .inr rfl
  · obtain ⟨k', ks', rfl, h1, -⟩ := h.inv
    rw [kind_of_blur (as := as) rfl h1]
    exact .inl ⟨_, _, rfl⟩

theorem variantOf_kept (hJ : J.tries = false) {w : Where} {ts : List Target} {r : Role} {n n' : Node}
    (hc : ctors J.en n = 0) (h : Alike J.en n' (treat J w ts r n)) (en : Ident) :
    variantOf en n'.kind = variantOf en n.kind := by
  obtain ⟨k, as, ks⟩ := n
  simp only [ctors, weigh_mk] at hc
  cases hm : callsMacro J.marker k with
  | false => rw [kind_kept hJ hm (by omega) h]; rfl
  | true =>
    obtain ⟨t, rfl⟩ := callsMacro_iff.mp hm
    rcases marker_kind hm h with ⟨p, t, hk⟩ | hk <;> rw [hk] <;> rfl

theorem isIf_kept (hJ : J.tries = false) {w : Where} {ts : List Target} {r : Role} {n n' : Node}
    (hc : ctors J.en n = 0) (h : Alike J.en n' (treat J w ts r n)) : isIf (some n') = isIf (some n) := by
  obtain ⟨k, as, ks⟩ := n
  simp only [ctors, weigh_mk] at hc
  have : ∀ n : Node, isIf (some n) = match n.kind with | .eIf => true | _ => false := by
    rintro ⟨k, as, ks⟩
    cases k <;> rfl
  rw [this, this]
  cases hm : callsMacro J.marker k with
  | false => rw [kind_kept hJ hm (by omega) h]; rfl
  | true =>
    obtain ⟨t, rfl⟩ := callsMacro_iff.mp hm
    rcases marker_kind hm h with ⟨p, t, hk⟩ | hk <;> rw [hk] <;> rfl

/-- The types of the node, in its role, are kept or become that of the enum. -/
def TypesFit (R : Rules T Sc) (G : Generated T) (J : Job) (ts : List Target) (r : Role) (a a' : Node) : Prop :=
  ∀ Γ Γ' w, Moved J G.type ts Γ Γ' → (r = .branch → isIf (some a) = false → w ≠ .free) →
    (r = .result → w = .free) → typedAs true R G J.marker a Γ w → typed R G a' Γ' (if r = .plain then w else .is G.type)

theorem fits_plain {ts : List Target} {a a' : Node} (h : TypesFit R G J ts .plain a a') :
    Typed J G.type ts (typedAs true R G J.marker a) (typed R G a') := fun _ _ _ hΓ => h _ _ _ hΓ (by simp) (by simp)

theorem fits_result {ts : List Target} {a a' : Node} (h : TypesFit R G J ts .result a a') {Γ Γ' : Around T Sc}
    (hΓ : Moved J G.type ts Γ Γ') (ht : typedAs true R G J.marker a Γ .free) : typed R G a' Γ' (.is G.type) :=
  h _ _ _ hΓ (by simp) (fun _ => rfl) ht

/-- What is annotated `#[nested]` keeps the type of the enum. -/
theorem fits_nested {ts : List Target} {a a' : Node} (h : TypesFit R G J ts .result a a') :
    Typed J G.type ts (onNested G.type true (typedAs true R G J.marker a)) (typed R G a') := by
  rintro Γ Γ' w hΓ ht
  unfold onNested at ht
  obtain ⟨rfl, ht⟩ := ht
  exact fits_result h hΓ ht

theorem fits_each {ts : List Target} {a a' : Node} (h : TypesFit R G J ts .branch a a') {Γ Γ' : Around T Sc} {w : Want T}
    (hΓ : Moved J G.type ts Γ Γ') (ht : each (typedAs true R G J.marker a) Γ w) : typed R G a' Γ' (.is G.type) := by
  unfold each at ht
  split at ht
  · obtain ⟨t, ht⟩ := ht
    exact h _ _ _ hΓ (fun _ _ => by simp) (by simp) ht
  · rename_i hne
    exact h _ _ _ hΓ (fun _ _ h => hne h) (by simp) ht

theorem fits_if {ts : List Target} {a a' : Node} (h : TypesFit R G J ts .branch a a') (hif : isIf (some a) = true)
    {Γ Γ' : Around T Sc} {w : Want T} (hΓ : Moved J G.type ts Γ Γ') (ht : typedAs true R G J.marker a Γ w) :
    typed R G a' Γ' (.is G.type) := h _ _ _ hΓ (fun _ h => by rw [hif] at h; cases h) (by simp) ht

theorem pairL_typedL {m : String} {P : Nat → Node → Node → Prop} {Q : Nat → Judge T Sc → Judge T Sc → Prop}
    {ks ks' : List Node} (h : PairL P ks ks') (hPQ : ∀ i a a', P i a a' → Q i (typedAs true R G m a) (typed R G a')) :
    PairL Q (typedAsL true R G m ks) (typedL R G ks') := by
  induction h generalizing Q with
  | nil => exact .nil
  | cons h _ ih => exact .cons (hPQ _ _ _ h) (ih fun i a a' => hPQ (i + 1) a a')

/-- Something that has a type has one. -/
theorem some_type {D : Judge T Sc} (hD : Mono (fun _ => True) D) {Γ : Around T Sc} {w : Want T} (hw : w ≠ .free)
    (h : D Γ w) (t : T) : ∃ t, D Γ (.is t) := by
  cases w with
  | is t => exact ⟨t, h⟩
  | free => exact absurd rfl hw
  | never => exact ⟨t, hD _ _ _ _ (Around.le_refl _ _) (.inl rfl) h⟩

theorem each_type {m : String} {n : Node} {Γ : Around T Sc} {w : Want T} (h : each (typedAs true R G m n) Γ w) :
    ∃ t, typedAs true R G m n Γ (.is t) := by
  cases w with
  | is t => exact ⟨t, h⟩
  | free => exact h
  | never => exact ⟨R.unit, typedAs_never h _⟩

theorem variantOf_path (en v : Ident) : variantOf en (.ePath false (variantPath en v)) = some v := by
  simp [variantOf, variantPath]

theorem inside_eq {Γ : Around T Sc} (h : Γ.here.next = none) : Γ.inside = Γ := by
  obtain ⟨ts, ret, tries, sc, s, n⟩ := Γ
  cases h
  rfl

theorem leaves_none {Γ : Around T Sc} (h : Γ.here.next = none) (s : Sc) : Γ.leaves s := by
  intro s' hs
  rw [h] at hs
  cases hs

theorem confine_eq {k : Kind} {d : Judge T Sc} {Γ : Around T Sc} {w : Want T}
    (hn : binds k = false → Γ.here.next = none) : confine k d Γ w = d Γ w := by
  unfold confine
  split
  · rfl
  · rename_i hk
    have h := hn (by simpa using hk)
    rw [inside_eq h]
    exact propext ⟨fun h => h.2, fun h' => ⟨leaves_none h _, h'⟩⟩

/-- Where nothing follows, there is nothing to say about scopes. -/
theorem typed_node {k : Kind} {as : List Attr} {ks : List Node} {Γ : Around T Sc} {w : Want T}
    (hn : binds k = false → Γ.here.next = none) :
    typed R G (.mk k as ks) Γ w = node R G k ks (typedL R G ks) Γ w := by
  rw [typed, confine_eq hn]

theorem typed_outside {n : Node} {Γ : Around T Sc} {w : Want T} (hk : binds n.kind = false)
    (hl : Γ.leaves Γ.here.scope) (h : typed R G n Γ.inside w) : typed R G n Γ w := by
  obtain ⟨k, as, ks⟩ := n
  simp only [Node.kind] at hk
  rw [typed] at h ⊢
  unfold confine at h ⊢
  simp only [hk, Bool.false_eq_true, if_false] at h ⊢
  exact ⟨hl, h.2⟩

/-- Constructing a value of the enum. -/
theorem typed_construct_want (hP : ∀ x t, G.payload x t) {as : List Attr} {v : Ident} {e : Node} {Γ : Around T Sc}
    {t : T} {w : Want T} (hn : Γ.here.next = none) (h : typed R G e Γ (.is t)) (hw : w.accepts G.type) :
    typed R G (construct as G.name v e) Γ w := by
  unfold construct
  rw [typed_node fun _ => hn]
  simp only [node, constructed, Node.kind, variantOf_path]
  exact ⟨t, by simpa [typedL, kid] using h, hP _ _, hw⟩

theorem typed_construct (hP : ∀ x t, G.payload x t) {as : List Attr} {v : Ident} {e : Node} {Γ : Around T Sc} {t : T}
    (hn : Γ.here.next = none) (h : typed R G e Γ (.is t)) : typed R G (construct as G.name v e) Γ (.is G.type) :=
  typed_construct_want hP hn h rfl

theorem typed_unit {Γ : Around T Sc} (hn : Γ.here.next = none) : typed R G (.mk .eTuple [] []) Γ (.is R.unit) := by
  rw [typed_node fun _ => hn]
  simp [node, typedL, Want.accepts]

theorem typedAsL_length {m : String} : ∀ l : List Node, (typedAsL true R G m l).length = l.length
  | [] => rfl
  | _ :: l => by rw [typedAsL, List.length_cons, List.length_cons, typedAsL_length l]

theorem kidRole_kept {k : Kind} {as : List Attr} {n i : Nat} (h1 : ∀ p, k ≠ .arm p) (h2 : ∀ p, k ≠ .sLocal p) :
    kidRole .plain k as n i = .plain := by
  unfold kidRole
  split <;> simp_all

/-- The kids of a node that stays. -/
theorem fits_kids {ts : List Target} {k : Kind} {as : List Attr} {ks ks' : List Node}
    (hl : ∀ p, k = .arm p → ks.length ≤ 2)
    (h : PairL (fun i => TypesFit R G J (kidTargets ts .plain k as i) (kidRole .plain k as ks.length i)) ks ks') :
    PairL (fun i => Typed J G.type (kidTargets ts .plain k as i))
      (onNestedKids G.type k as (typedAsL true R G J.marker ks)) (typedL R G ks') := by
  by_cases hn : (∃ p, k = .arm p) ∨ ∃ p, k = .sLocal p
  · rcases hn with ⟨p, rfl⟩ | ⟨p, rfl⟩
    · cases hm : marked "nested" as with
      | false =>
        rw [onNestedKids_plain fun _ => hm]
        refine pairL_typedL h fun i a a' h => fits_plain ?_
        simpa [kidRole, hm] using h
      | true =>
        simp only [kidRole, hm, true_and] at h
        cases h with
        | nil => exact .nil
        | cons h1 h => cases h with
          | nil =>
            simp only [List.length_cons, List.length_nil, if_true] at h1
            simp only [typedAsL, typedL, onNestedKids, hm]
            exact .cons (fits_nested h1) .nil
          | cons h2 h => cases h with
            | nil =>
              simp only [List.length_cons, List.length_nil] at h1 h2
              rw [if_neg (by simp)] at h1
              simp only [if_true] at h2
              simp only [typedAsL, typedL, onNestedKids, hm]
              exact .cons (fits_plain h1) (.cons (fits_nested h2) .nil)
            | cons => have := hl p rfl; simp at this
    · cases hm : marked "nested" as with
      | false =>
        rw [onNestedKids_plain fun _ => hm]
        refine pairL_typedL h fun i a a' h => fits_plain ?_
        simpa [kidRole, hm] using h
      | true =>
        simp only [kidRole, hm, true_and] at h
        cases h with
        | nil => exact .nil
        | cons h1 h =>
          simp only [if_true] at h1
          simp only [typedAsL, typedL, onNestedKids, hm]
          refine .cons (fits_nested h1) (pairL_typedL h fun i a a' h => fits_plain ?_)
          simpa using h
  · rw [show onNestedKids G.type k as (typedAsL true R G J.marker ks) = typedAsL true R G J.marker ks by
      cases k <;> first | rfl | (exfalso; exact hn (.inl ⟨_, rfl⟩)) | (exfalso; exact hn (.inr ⟨_, rfl⟩))]
    refine pairL_typedL h fun i a a' h => fits_plain ?_
    have : kidRole .plain k as ks.length i = .plain := by
      exact kidRole_kept (fun p h => hn (.inl ⟨p, h⟩)) fun p h => hn (.inr ⟨p, h⟩)
    rwa [this] at h

theorem typedL_length : ∀ l : List Node, (typedL R G l).length = l.length
  | [] => rfl
  | _ :: l => by rw [typedL, List.length_cons, List.length_cons, typedL_length l]

/-- The argument of a marker keeps its type. -/
theorem typed_moved {e : Node} (h : leavesNothing J e = true) {ts : List Target} {Γ Γ' : Around T Sc} {w : Want T}
    (hΓ : Moved J E ts Γ Γ') (ht : typed R G e Γ w) : typed R G e Γ' w := by
  unfold leavesNothing at h
  rw [List.all_eq_true] at h
  refine typed_mono e _ _ _ _ ⟨fun l u hS => ?_, fun hS => ?_, hΓ.answer, hΓ.here⟩ (.inr rfl) ht
  · obtain ⟨x, hx, hl⟩ := hS
    have := h x hx
    rw [hl] at this
    simp [isBreak] at this
  · obtain ⟨x, hx, hl⟩ := hS
    have := h x hx
    rw [hl] at this
    have h1 := hΓ.ret
    cases hr : J.returns
    · rw [hr] at h1; exact h1
    · simp [hr] at this

theorem node_mono {m : String} (k : Kind) (as : List Attr) (ks : List Node) :
    Mono (fun _ => True) (node R G k ks (onNestedKids G.type k as (typedAsL true R G m ks))) := by
  refine mono_node (fun d hd => ?_) trivial
  obtain ⟨d0, h0, h1⟩ := mem_onNestedKids hd
  obtain ⟨n, hn, rfl⟩ := mem_typedAsL h0
  rcases h1 with rfl | ⟨b, rfl⟩
  · exact typedAs_mono n
  · exact mono_onNested (typedAs_mono n)

theorem role_never {r : Role} {p : String} {as : List Attr} {ks : List Node} (h : marked "never" as = true)
    (hw : wrappable (role J r (.arm p) as ks) (.arm p) ks = true) : role J r (.arm p) as ks = .plain := by
  revert hw
  unfold role
  split
  · simp
  · cases r with
    | plain => simp [isExpression]
    | branch => simp [skipsArm, h]
    | result =>
      dsimp only
      split
      · simp
      · intro hw; cases hw

/-- Branches come from branches. -/
theorem role_branch {r : Role} {k : Kind} {as : List Attr} {ks : List Node} (h : role J r k as ks = .branch) :
    r = .branch := by
  revert h
  unfold role
  split
  · simp
  · split <;> (try split) <;> simp_all

/-- Results come from results. -/
theorem role_result_from {r : Role} {k : Kind} {as : List Attr} {ks : List Node} (hn : nestedExpr k as = false)
    (h : role J r k as ks = .result) : r = .result := by
  unfold nestedExpr at hn
  revert h
  unfold role
  split
  · simp
  · split <;> (try split) <;> simp_all

/-- The treatment keeps types, but for those of the result. -/
theorem typed_treat (hR : Infers R) (hJ : J.tries = false) (hG : G.name = J.en) (hP : ∀ x t, G.payload x t) : ∀ (n : Node)
    (w : Where) (ts : List Target) (r : Role) (n' : Node), w.closure = false → typable J r n = true →
    ctors J.en n = 0 → Alike J.en n' (treat J w ts r n) → TypesFit R G J ts r n n' := by
  refine Node.ind (P := fun n => ∀ (w : Where) (ts : List Target) (r : Role) (n' : Node), w.closure = false →
    typable J r n = true → ctors J.en n = 0 → Alike J.en n' (treat J w ts r n) →
    TypesFit R G J ts r n n') ?_
  intro k as ks ih w ts r n' hcl hcp hct ha
  rw [typable] at hcp
  simp only [Bool.and_eq_true, Bool.not_eq_true', Bool.or_eq_true, beq_iff_eq, bne_iff_ne] at hcp
  obtain ⟨⟨⟨⟨⟨⟨hw, hnr⟩, hdel⟩, hnev⟩, hmac⟩, hinert⟩, hkids⟩ := hcp
  replace hmac := hmac.imp_right (·.2)
  replace hkids : hidesCode k = false → isFrozen k = false →
      typableL J (fun i => kidRole (role J r k as ks) k as ks.length i) ks = true := by
    intro h1 h2
    rcases hkids with (h | h) | h
    · rw [h1] at h; cases h
    · rw [h2] at h; cases h
    · exact h
  simp only [ctors, weigh_mk] at hct
  -- markers
  cases hmk : callsMacro J.marker k && ks.length == 1 with
  | true =>
    have hmk0 := hmk
    rw [Bool.and_eq_true, beq_iff_eq] at hmk0
    obtain ⟨t, rfl⟩ := callsMacro_iff.mp hmk0.1
    match ks, hmk0.2 with
    | [e], _ =>
      rw [treat.eq_def] at ha
      simp only [assemble, if_true] at ha
      obtain ⟨v, y, rfl, hy⟩ := ctor_inv ha
      have he0 : ctors J.en e = 0 := by
        simp only [weighL_cons] at hct
        simp only [ctors]; omega
      have hye : y = e := by
        have h3 : ctors J.en y = 0 := by rw [hy.ctors, he0]
        unfold Alike at hy
        rwa [noAttrs_blur _ he0, noAttrs_blur _ h3] at hy
      subst hye
      intro Γ Γ' u hΓ _ _ hty
      rw [typedAs_marker hmk] at hty
      obtain ⟨hs, ⟨t, ht⟩, ha⟩ := hty
      have hl : leavesNothing J y = true := by
        have := hmac.resolve_left (by rw [hmk0.1]; simp)
        simpa using this
      rw [← hG]
      refine typed_outside rfl (by rw [leaves_eq hΓ.here, hΓ.here]; exact hs)
        (typed_construct_want hP rfl (typed_moved hl hΓ.inside ht) ?_)
      split
      · exact ha
      · rfl
  | false =>
  have ha0 := ha
  rw [treat.eq_def] at ha
  dsimp only at ha
  obtain ⟨ts1, hth⟩ : ∃ ts1, through ts k as = ts1 := ⟨_, rfl⟩
  suffices hmain : ∀ r1, role J r k as ks = r1 → ∀ Γ Γ' u, Moved J G.type ts1 Γ Γ' →
      (binds k = false → Γ.here.next = none) →
      (r1 = .branch → isIf (some (.mk k as ks)) = false → u ≠ .free) → (r1 = .result → u = .free) →
      (k = .eReturn → marked "never" as = true → Γ.ret ≠ .free) →
      node R G k ks (onNestedKids G.type k as (typedAsL true R G J.marker ks)) Γ u →
      typed R G n' Γ' (if r1 = .plain then u else .is G.type) by
    have h0 : ∀ Γ Γ' u, Moved J G.type ts Γ Γ' → (binds k = false → Γ.here.next = none) →
        (role J r k as ks = .branch → isIf (some (.mk k as ks)) = false → u ≠ .free) →
        (role J r k as ks = .result → u = .free) →
        onNever true k as (node R G k ks (onNestedKids G.type k as (typedAsL true R G J.marker ks))) Γ u →
        typed R G n' Γ' (if role J r k as ks = .plain then u else .is G.type) := by
      intro Γ Γ' u hΓ hnx hu1 hu2 hc
      by_cases hv : marked "never" as = true ∧ (isExpression k = true ∨ ∃ p, k = .arm p)
      · unfold onNever at hc
        rw [Bool.true_and, if_pos hv.1] at hc
        have hpl : role J r k as ks = .plain := by
          rcases hv.2 with h | ⟨p, rfl⟩
          · refine hnev.resolve_left ?_
            unfold pledges
            rw [h, hv.1]; simp
          · exact role_never hv.1 hw
        rw [hpl] at hmain ⊢
        rw [if_pos rfl]
        split at hc
        · have hts : ts1 = ts := by rw [← hth]; rfl
          rw [hts] at hmain
          exact typed_never (hmain _ rfl _ _ _ hΓ hnx (by simp) (by simp) (by simp) hc) _
        · rename_i hna
          have hex := hv.2.resolve_right fun ⟨p, h⟩ => hna p h
          rw [if_pos hex] at hc
          have hts : ts1 = ts.map ({ · with ours := false }) := by
            rw [← hth]
            unfold through
            rw [hex, hv.1]; rfl
          rw [hts] at hmain
          refine typed_never (hmain _ rfl _ _ _ (hΓ.shut k) hnx (by simp) (by simp) ?_ hc) _
          rintro rfl _
          simp only [Around.shut]
          cases Γ.ret <;> simp [Want.shut]
      · rw [onNever_eq hv] at hc
        have hts : ts1 = ts := by
          rw [← hth]
          unfold through
          rw [if_neg]
          intro h
          rw [Bool.and_eq_true] at h
          exact hv ⟨h.2, .inl h.1⟩
        rw [hts] at hmain
        exact hmain _ rfl Γ Γ' u hΓ hnx hu1 hu2 (by rintro rfl h; exact absurd ⟨h, .inl rfl⟩ hv) hc
    have h1 : ∀ Γ Γ' u, Moved J G.type ts Γ Γ' →
        (role J r k as ks = .branch → isIf (some (.mk k as ks)) = false → u ≠ .free) →
        (role J r k as ks = .result → u = .free) →
        confine k (onNever true k as (node R G k ks (onNestedKids G.type k as (typedAsL true R G J.marker ks)))) Γ u →
        typed R G n' Γ' (if role J r k as ks = .plain then u else .is G.type) := by
      intro Γ Γ' u hΓ hu hu2 hc
      cases hb : binds k with
      | true =>
        unfold confine at hc
        rw [if_pos hb] at hc
        exact h0 Γ Γ' u hΓ (by rw [hb]; simp) hu hu2 hc
      | false =>
        unfold confine at hc
        rw [if_neg (by rw [hb]; simp)] at hc
        refine typed_outside ?_ (by rw [leaves_eq hΓ.here, hΓ.here]; exact hc.1)
          (h0 _ _ u hΓ.inside (fun _ => rfl) hu hu2 hc.2)
        cases hm : callsMacro J.marker k with
        | false => rw [kind_kept hJ hm (by omega) ha0]; exact hb
        | true => rcases marker_kind hm ha0 with ⟨p, t, hk⟩ | hk <;> rw [hk] <;> rfl
    cases hn : nestedExpr k as with
    | true =>
      have hr1 := hnr.resolve_left (by rw [hn]; simp)
      rw [hr1] at h1
      intro Γ Γ' u hΓ _ _ hty
      rw [typedAs_node hmk, hn] at hty
      unfold onNested at hty
      rw [if_pos rfl] at hty
      obtain ⟨rfl, hty⟩ := hty
      have := h1 _ _ _ hΓ (by simp) (fun _ => rfl) hty
      simpa using this
    | false =>
      have hD : typedAs true R G J.marker (.mk k as ks) =
          confine k (onNever true k as (node R G k ks (onNestedKids G.type k as (typedAsL true R G J.marker ks)))) := by
        rw [typedAs_node hmk, hn, onNested_false]
      by_cases hr : r = .plain
      · have hpl : role J r k as ks = .plain := by
          rw [hr]
          unfold nestedExpr at hn
          unfold role
          simp [hn]
        rw [hpl] at h1
        intro Γ Γ' u hΓ _ _ hty
        rw [hD] at hty
        rw [if_pos hr]
        exact h1 _ _ _ hΓ (by simp) (by simp) hty
      · by_cases hr1 : role J r k as ks = .plain
        · rw [hr1] at h1
          intro Γ Γ' u hΓ _ _ hty
          have h2 := delivers_typed hR _ ((hdel.resolve_left (by simp [hr, hr1]))) Γ u hty
          rw [hD] at h2
          rw [if_neg hr]
          exact h1 _ _ _ hΓ (by simp) (by simp) h2
        · intro Γ Γ' u hΓ hu hu2 hty
          rw [hD] at hty
          have h2 := h1 _ _ _ hΓ (fun h3 => hu ?_) (fun h3 => hu2 ?_) hty
          · rw [if_neg hr1] at h2
            rw [if_neg hr]
            exact h2
          · exact role_branch h3
          · exact role_result_from hn h3
  intro r1 hr1
  rw [hr1] at ha hw hkids
  have hnest : r1 = .branch → carries k = true → k ≠ .eIf → marked "nested" as = false := by
    rintro rfl hc hk
    have hne : nestedExpr k as = false := by
      rcases hnr with h | h
      · exact h
      · rw [hr1] at h; cases h
    revert hr1
    unfold role
    split
    · simp
    · split
      · intro h
        split at h
        · cases h
        · rename_i hsk
          simp only [skipsArm, Bool.or_eq_true, not_or, hasNested_mk, hc, Bool.true_and, Bool.not_eq_true] at hsk
          simpa using hsk.1.2.1
      · simp [carries, isExpression] at hc
      · intro h
        split at h
        · cases h
        · simpa [nestedExpr, isExpression] using hne
      · exact absurd rfl hk
      · simp
      · intro h
        split at h <;> cases h
      · intro h
        split at h <;> cases h
  -- the kids
  have hfit : hidesCode k = false → isFrozen k = false → ∀ ks',
      AlikeL J.en ks' (treatL J (w.enter k) (fun i => kidTargets ts r1 k as i)
        (fun i => kidRole r1 k as ks.length i) ks) →
      PairL (fun i => TypesFit R G J (kidTargets ts r1 k as i) (kidRole r1 k as ks.length i)) ks ks' := by
    intro hh hf ks' hks'
    have hcl' : (w.enter k).closure = false := by
      cases k <;> first | exact hcl | cases hf
    have : ∀ (l l' : List Node) (ts : Nat → List Target) (rs : Nat → Role), (∀ n ∈ l, n ∈ ks) →
        weighL (isCtor J.en) l = 0 → typableL J rs l = true →
        AlikeL J.en l' (treatL J (w.enter k) ts rs l) →
        PairL (fun i => TypesFit R G J (ts i) (rs i)) l l' := by
      intro l
      induction l with
      | nil => intro l' ts rs _ _ _ h; rw [alikeL_nil h]; exact .nil
      | cons a l ihl =>
        intro l' ts rs hmem hc hs h
        rw [typableL, Bool.and_eq_true] at hs
        rw [weighL_cons] at hc
        simp only [treatL] at h
        obtain ⟨a', m, rfl, h1, h2⟩ := alikeL_inv h
        exact .cons (ih a (hmem a (by simp)) _ _ _ _ hcl' hs.1 (by simp only [ctors]; omega) h1)
          (ihl m _ _ (fun n hn => hmem n (by simp [hn])) (by omega) hs.2 h2)
    exact this ks ks' _ _ (fun _ h => h) (by omega) (hkids hh hf) hks'
  have hk0 : isCtor J.en (k, as) = 0 := by omega
  have hcls : ∀ {ks2}, Alike J.en n' (.mk k (if carries k then strip as else as) ks2) →
      ∃ ks', n' = .mk k (if carries k then strip as else as) ks' ∧ AlikeL J.en ks' ks2 := by
    intro ks2 h
    obtain ⟨k', ks', rfl, h1, h2⟩ := h.inv
    rw [kind_of_blur hk0 h1]
    exact ⟨ks', rfl, h2⟩
  let Fits (r1 : Role) : Prop := ∀ Γ Γ' u, Moved J G.type ts1 Γ Γ' → (binds k = false → Γ.here.next = none) →
    (r1 = .branch → isIf (some (.mk k as ks)) = false → u ≠ .free) → (r1 = .result → u = .free) →
    (k = .eReturn → marked "never" as = true → Γ.ret ≠ .free) →
    node R G k ks (onNestedKids G.type k as (typedAsL true R G J.marker ks)) Γ u →
    typed R G n' Γ' (if r1 = .plain then u else .is G.type)
  -- nodes that stay
  have hkeep : ∀ as' ks', n' = .mk k as' ks' → r1 = .plain →
      AlikeL J.en ks' (if hidesCode k then ks else treatL J (w.enter k) (fun i => kidTargets ts r1 k as i)
        (fun i => kidRole r1 k as ks.length i) ks) →
      (k = .eReturn → J.returns = false ∨ marked "never" as = true) →
      (∀ l, k = .eBreak l → hits ts1 l = false) →
      Fits r1 := by
    rintro as' ks' rfl rfl hks' hret hbrk Γ Γ' u hΓ hnx - - hshut hty
    simp only [if_true]
    rw [typed_node (by rw [hΓ.here]; exact hnx)]
    have hlen : ∀ p, k = .arm p → ks.length ≤ 2 := by
      rintro p rfl
      match ks, hty with
      | [], _ => simp
      | [_], _ => simp
      | [_, _], _ => simp
      | _ :: _ :: _ :: _, hty => exact hty.elim fun _ h => h.2.elim
    refine node_keeps (as := as) hth ?_ (fun d hd Γ w h => ?_) hbrk ?_ ?_ ?_ hΓ (fun hk => ?_) hty
    rotate_left
    · obtain ⟨n, -, rfl⟩ := mem_typedL hd
      exact typed_never h _
    rotate_left 3
    · have h1 := hΓ.ret
      rcases hret hk with h2 | h2
      · rw [h2] at h1; exact h1
      · cases hr : J.returns with
        | false => rw [hr] at h1; exact h1
        | true =>
          rw [hr, if_pos rfl] at h1
          exact .inl (h1.2.resolve_left (hshut hk h2))
    · intro hh hf
      rw [hh] at hks'
      exact fits_kids hlen (hfit hh hf ks' hks')
    · intro hhf
      by_cases hh : hidesCode k = true
      · rw [if_pos hh] at hks'
        have h1 : ctors J.en (.mk .block [] ks) = 0 := by
          simp only [ctors, weigh_mk]
          have : isCtor J.en (.block, []) = 0 := rfl
          omega
        have h2 : Alike J.en (.mk .block [] ks') (.mk .block [] ks) := .node _ _ hks'
        have h3 : ctors J.en (.mk .block [] ks') = 0 := by rw [h2.ctors, h1]
        unfold Alike at h2
        rw [noAttrs_blur _ h1, noAttrs_blur _ h3] at h2
        cases h2
        rfl
      · have hf := hhf.resolve_left hh
        rw [if_neg hh] at hks'
        obtain ⟨hi1, hi2, hi3⟩ := inert_code (hinert.resolve_left (by rw [hf]; simp))
        have hkt : ∀ i, kidTargets ts .plain k as i = [] := by
          intro i; cases k <;> first | rfl | cases hf
        have hkr : ∀ i, kidRole .plain k as ks.length i = .plain := by
          intro i; cases k <;> first | rfl | cases hf
        have hret' : (w.enter k).closure = true ∨ J.returns = false ∨ ∀ l ∈ visibleL ks, l.1 ≠ .eReturn := by
          cases k <;> first | (cases hf; done) | exact .inl rfl | skip
          cases hr : J.returns
          · exact .inr (.inl rfl)
          · exact .inr (.inr (hi3 rfl hr))
        have : ∀ (l l' : List Node) (ts : Nat → List Target) (rs : Nat → Role), (∀ n ∈ l, n ∈ ks) →
            weighL (isCtor J.en) l = 0 → hasNested l = false → (∀ i, ts i = []) → (∀ i, rs i = .plain) →
            AlikeL J.en l' (treatL J (w.enter k) ts rs l) → noAttrsL l' = noAttrsL l := by
          intro l
          induction l with
          | nil => intro l' ts rs _ _ _ _ _ h; rw [alikeL_nil h]
          | cons a l ihl =>
            intro l' ts rs hmem hc hn hts hrs h
            rw [weighL_cons] at hc
            rw [hasNested_cons, Bool.or_eq_false_iff] at hn
            simp only [treatL] at h
            obtain ⟨a', m, rfl, h1, h2⟩ := alikeL_inv h
            rw [hts, hrs] at h1
            rw [noAttrsL, noAttrsL, ihl m _ _ (fun n hn => hmem n (by simp [hn])) (by omega) hn.2
              (fun i => hts _) (fun i => hrs _) h2]
            have hv : ∀ x ∈ visible a, x ∈ visibleL ks := fun x hx => visibleL_mem (hmem a (by simp)) hx
            rw [frozen_alike hJ (by intro t ht; cases ht) (by simp only [ctors]; omega)
              (fun x hx => hi1 x (hv x hx)) hn.1 ?_ h1]
            rcases hret' with h | h | h
            · exact .inl h
            · exact .inr (.inl h)
            · exact .inr (.inr fun x hx => h x (hv x hx))
        exact this ks ks' _ _ (fun _ h => h) (by omega) hi2 hkt hkr hks'
    · rintro rfl
      simp only [hidesCode, Bool.false_eq_true, if_false] at hks'
      have hkk := hkids rfl rfl
      match ks, hks', hkk, hct with
      | [], h, _, _ => rw [alikeL_nil h]
      | [a], h, _, _ =>
        simp only [treatL] at h
        obtain ⟨a', m, rfl, h1, h2⟩ := alikeL_inv h
        rw [alikeL_nil h2]; rfl
      | [a, b], h, hkk, hct =>
        simp only [treatL] at h
        obtain ⟨a', m, rfl, h1, h2⟩ := alikeL_inv h
        obtain ⟨b', m, rfl, h3, h4⟩ := alikeL_inv h2
        rw [alikeL_nil h4]
        rw [weighL_cons] at hct
        exact variantOf_kept hJ (by simp only [ctors]; omega) h1 _
      | a :: b :: c :: l, h, _, _ =>
        simp only [treatL] at h
        obtain ⟨a', m, rfl, h1, h2⟩ := alikeL_inv h
        obtain ⟨b', m, rfl, h3, h4⟩ := alikeL_inv h2
        obtain ⟨c', m, rfl, h5, h6⟩ := alikeL_inv h4
        rfl
    · rintro rfl
      simp only [hidesCode, Bool.false_eq_true, if_false] at hks'
      have hkk := hkids rfl rfl
      match ks, hks', hkk, hct with
      | [], h, _, _ => rw [alikeL_nil h]
      | [a], h, _, _ =>
        simp only [treatL] at h
        obtain ⟨a', m, rfl, h1, h2⟩ := alikeL_inv h
        rw [alikeL_nil h2]; rfl
      | [a, b], h, _, _ =>
        simp only [treatL] at h
        obtain ⟨a', m, rfl, h1, h2⟩ := alikeL_inv h
        obtain ⟨b', m, rfl, h3, h4⟩ := alikeL_inv h2
        rw [alikeL_nil h4]; rfl
      | a :: b :: c :: l, h, hkk, hct =>
        simp only [treatL] at h
        obtain ⟨a', m, rfl, h1, h2⟩ := alikeL_inv h
        obtain ⟨b', m, rfl, h3, h4⟩ := alikeL_inv h2
        obtain ⟨c', m, rfl, h5, h6⟩ := alikeL_inv h4
        simp only [weighL_cons] at hct
        simp only [List.getElem?_cons_succ, List.getElem?_cons_zero]
        exact isIf_kept hJ (by simp only [ctors]; omega) h5
  -- wrapped values
  have hvalue : k = .eReturn ∨ (∃ l, k = .eBreak l) → r1 = .plain → ∀ ks',
      AlikeL J.en ks' (wrapHead J (treatL J (w.enter k) (fun i => kidTargets ts r1 k as i)
        (fun i => kidRole r1 k as ks.length i) ks)) → ∀ Γ Γ' u, Moved J G.type ts1 Γ Γ' → Γ.here.next = none →
      value R (typedAsL true R G J.marker ks) Γ u → value R (typedL R G ks') Γ' (.is G.type) := by
    rintro hk rfl ks' hks' Γ Γ' u hΓ hnx hv
    rw [← hΓ.here] at hnx
    have hkr : ∀ i, kidRole .plain k as ks.length i = .plain := by
      intro i; rcases hk with rfl | ⟨l, rfl⟩ <;> rfl
    have hh : hidesCode k = false := by rcases hk with rfl | ⟨l, rfl⟩ <;> rfl
    have hf : isFrozen k = false := by rcases hk with rfl | ⟨l, rfl⟩ <;> rfl
    have hkt : ∀ i, kidTargets ts .plain k as i = ts1 := by
      intro i; rw [← hth]; rcases hk with rfl | ⟨l, rfl⟩ <;> simp only [kidTargets, hth]
    have h0 := hfit hh hf
    cases ks with
    | nil =>
      simp only [treatL, wrapHead] at hks'
      obtain ⟨a, m, rfl, h1, h2⟩ := alikeL_inv hks'
      cases alikeL_nil h2
      obtain ⟨v, y, rfl, h3⟩ := ctor_inv h1
      obtain ⟨kk, rfl, h4⟩ := Alike.rigid h3 (by simp)
      cases alikeL_nil h4
      rw [← hG]
      exact typed_construct (as := []) hP hnx (typed_unit hnx)
    | cons e es =>
      simp only [treatL, wrapHead] at hks' h0
      obtain ⟨a, m, rfl, h1, h2⟩ := alikeL_inv hks'
      obtain ⟨v, y, rfl, h3⟩ := ctor_inv h1
      have h0 := h0 _ (alikeL_cons.mpr ⟨h3, h2⟩)
      cases h0 with
      | cons h0 _ =>
        rw [hkr, hkt] at h0
        obtain ⟨t, ht⟩ := each_type (n := e) hv
        rw [← hG]
        exact typed_construct (as := []) hP hnx (fits_plain h0 _ _ _ hΓ ht)
  -- markers as values
  have hmarked : k = .eReturn ∨ (∃ l, k = .eBreak l) → r1 = .plain → isCallOf J.marker ks = true → ∀ ks',
      AlikeL J.en ks' (treatL J (w.enter k) (fun i => kidTargets ts r1 k as i)
        (fun i => kidRole r1 k as ks.length i) ks) → ∀ Γ Γ' u, Moved J G.type ts1 Γ Γ' →
      value R (typedAsL true R G J.marker ks) Γ u → value R (typedL R G ks') Γ' (.is G.type) := by
    rintro hk rfl hcall ks' hks' Γ Γ' u hΓ hv
    have hkr : ∀ i, kidRole .plain k as ks.length i = .plain := by
      intro i; rcases hk with rfl | ⟨l, rfl⟩ <;> rfl
    have hh : hidesCode k = false := by rcases hk with rfl | ⟨l, rfl⟩ <;> rfl
    have hf : isFrozen k = false := by rcases hk with rfl | ⟨l, rfl⟩ <;> rfl
    have hkt : ∀ i, kidTargets ts .plain k as i = ts1 := by
      intro i; rw [← hth]; rcases hk with rfl | ⟨l, rfl⟩ <;> simp only [kidTargets, hth]
    have h0 := hfit hh hf ks' hks'
    have hkk := hkids hh hf
    cases h0 with
    | nil => cases hcall
    | @cons _ e e' es es' h0 _ =>
      rw [hkr, hkt] at h0
      rw [typableL, Bool.and_eq_true] at hkk
      obtain ⟨t, ht⟩ := each_type (n := e) hv
      have hE : t = G.type := by
        obtain ⟨ek, eas, eks⟩ := e
        have hm : callsMacro J.marker ek = true := by
          cases ek <;> first | (cases hcall; done) | exact hcall
        have h1 := hkk.1
        rw [typable] at h1
        simp only [Bool.and_eq_true, Bool.or_eq_true, Bool.not_eq_true', hm, Bool.true_eq_false, false_or] at h1
        rw [typedAs_marker (by rw [hm, h1.1.1.2.1]; rfl)] at ht
        exact ht.2.2.symm
      subst hE
      exact fits_plain h0 _ _ _ hΓ ht
  -- branches of `if`
  have hcond : k = .eIf → r1 ≠ .plain → ∀ as' ks', n' = .mk k as' ks' →
      AlikeL J.en ks' (treatL J (w.enter k) (fun i => kidTargets ts r1 k as i)
        (fun i => kidRole r1 k as ks.length i) ks) → Fits r1 := by
    rintro rfl hr as' ks' rfl hks' Γ Γ' u hΓ hnx - - - hty
    rw [if_neg hr]
    have h0 := hfit rfl rfl ks' hks'
    have hl : ks.length = 3 := by
      cases r1 with
      | plain => exact absurd rfl hr
      | result => simpa [wrappable] using hw
      | branch => simpa [wrappable] using hw
    match ks, hl with
    | [c, a, b], _ =>
      cases h0 with
      | cons hc h0 => cases h0 with
        | cons hx h0 => cases h0 with
          | cons hb h0 =>
            cases h0
            simp only [kidRole, kidTargets, hth] at hc hx hb
            rw [if_neg (by simp)] at hc
            rw [if_pos ⟨hr, by simp⟩] at hx
            rw [if_pos ⟨hr, by simp⟩] at hb
            rw [typed_node (by rw [hΓ.here]; exact hnx)]
            simp only [onNestedKids, typedAsL] at hty
            simp only [node, typedL, List.getElem?_cons_succ, List.getElem?_cons_zero, kid] at hty ⊢
            obtain ⟨s, h1, h2, h3⟩ := hty
            refine ⟨s, fits_plain hc _ _ _ (hΓ.before s) h1, fits_each hx (hΓ.within s) h2, ?_⟩
            split at h3
            · have h4 := fits_if hb (by assumption) hΓ h3
              split <;> exact h4
            · have h4 := fits_each hb hΓ h3
              split <;> exact h4
  -- statements
  have hstmts : ∀ ks', (∀ i, kidTargets ts r1 k as i = ts1) → hidesCode k = false → isFrozen k = false →
      AlikeL J.en ks' (treatL J (w.enter k) (fun i => kidTargets ts r1 k as i)
        (fun i => kidRole r1 k as ks.length i) ks) → (∀ i, i + 1 ≠ ks.length → kidRole r1 k as ks.length i = .plain) →
      ∀ Γ Γ' u u', Moved J G.type ts1 Γ Γ' →
      ((u' = u ∧ ∀ i, i + 1 = ks.length → kidRole r1 k as ks.length i = .plain) ∨
        (u' = .is G.type ∧ u = .free ∧ ks ≠ [] ∧ ∀ i, i + 1 = ks.length → kidRole r1 k as ks.length i = .result)) →
      stmts R (typedAsL true R G J.marker ks) Γ u → stmts R (typedL R G ks') Γ' u' := by
    intro ks' hkt hh hf hks' hpl Γ Γ' u u' hΓ hu
    refine stmts_last hΓ (P := fun i d d' => (i + 1 ≠ ks.length → Typed J G.type ts1 d d') ∧
        (i + 1 = ks.length → ∀ Γ Γ', Moved J G.type ts1 Γ Γ' → d Γ u → d' Γ' u'))
      (pairL_typedL (hfit hh hf ks' hks') fun i a a' h => ⟨fun hi => ?_, fun hi Γ Γ' hΓ ht => ?_⟩)
      (fun i d d' hi h => h.1 ?_) (fun i d d' hi h => h.2 ?_) fun h0 => ?_
    · rw [hpl i hi, hkt] at h
      exact fits_plain h
    · rcases hu with ⟨rfl, h1⟩ | ⟨rfl, rfl, -, h1⟩
      · rw [h1 i hi, hkt] at h
        exact fits_plain h _ _ _ hΓ ht
      · rw [h1 i hi, hkt] at h
        exact fits_result h hΓ ht
    · rw [typedAsL_length] at hi; omega
    · rw [typedAsL_length] at hi; exact hi
    · rcases hu with ⟨rfl, -⟩ | ⟨-, -, h1, -⟩
      · exact id
      · exfalso
        have := typedAsL_length (R := R) (G := G) (m := J.marker) ks
        rw [h0] at this
        exact h1 (List.eq_nil_of_length_eq_zero this.symm)
  -- wrapped blocks
  have hblock : k = .block ∨ k = .eBlock none → r1 = .branch → ∀ as' ks', n' = .mk k as' ks' →
      AlikeL J.en ks' (wrapAll J (treatL J (w.enter k) (fun i => kidTargets ts r1 k as i)
        (fun i => kidRole r1 k as ks.length i) ks)) → Fits r1 := by
    rintro hk rfl as' ks' rfl hks' Γ Γ' u hΓ hnx hu - - hty
    replace hnx : Γ'.here.next = none := by rw [hΓ.here]; exact hnx (by rcases hk with rfl | rfl <;> rfl)
    simp only [wrapAll] at hks'
    obtain ⟨a, m, rfl, h1, h2⟩ := alikeL_inv hks'
    cases alikeL_nil h2
    obtain ⟨l1, rfl, h3⟩ := Alike.rigid h1 (by simp)
    obtain ⟨a, m, rfl, h4, h5⟩ := alikeL_inv h3
    cases alikeL_nil h5
    obtain ⟨v, y, rfl, h6⟩ := ctor_inv h4
    obtain ⟨l2, rfl, h7⟩ := Alike.rigid h6 (by simp)
    have hkr : ∀ i, kidRole .branch k as ks.length i = .plain := by
      intro i; rcases hk with rfl | rfl <;> simp [kidRole]
    obtain ⟨t, ht⟩ := some_type (node_mono k as ks) (hu rfl (by rcases hk with rfl | rfl <;> rfl)) hty R.unit
    have h8 := hstmts l2 (by intro i; rcases hk with rfl | rfl <;> simp only [kidTargets, hth])
      (by rcases hk with rfl | rfl <;> rfl) (by rcases hk with rfl | rfl <;> rfl) h7 (fun i _ => hkr i)
      Γ Γ' (.is t) (.is t) hΓ (.inl ⟨rfl, fun i _ => hkr i⟩)
      (by rcases hk with rfl | rfl <;> exact ht)
    have h9 : typed R G (construct [] J.en v (.mk (.eBlock none) [] l2)) Γ' (.is G.type) := by
      rw [← hG]
      refine typed_construct hP hnx (t := t) ?_
      rw [typed_node fun _ => hnx]
      exact h8
    simp only [reduceCtorEq, if_false]
    rw [typed_node fun _ => hnx]
    rcases hk with rfl | rfl <;>
    · simp only [node, typedL, stmts]
      rw [typed_node fun _ => hnx]
      simpa only [node, typedL, kid, List.getElem?_cons_zero] using h9
  unfold assemble at ha
  dsimp only at ha
  split at ha
  · -- `return`
    cases r1 <;> try (cases hw; done)
    split at ha
    · rename_i hr
      simp only [Bool.and_eq_true, Bool.not_eq_true'] at hr
      obtain ⟨ks', rfl, hks'⟩ := hcls ha
      intro Γ Γ' u hΓ hnx _ hfree _ hty
      rw [typed_node (by rw [hΓ.here]; exact hnx)]
      simp only [node] at hty ⊢
      have hre := hΓ.ret
      rw [hr.1.1.1, if_pos rfl] at hre
      rw [hre.1]
      simp only [hidesCode, Bool.false_eq_true, if_false] at hks'
      exact hvalue (.inl rfl) rfl ks' hks' _ _ _ hΓ (hnx rfl) hty
    · rename_i hr
      obtain ⟨ks', rfl, hks'⟩ := hcls ha
      by_cases hc : J.returns = true ∧ isCallOf J.marker ks = true
      · intro Γ Γ' u hΓ hnx _ hfree _ hty
        rw [typed_node (by rw [hΓ.here]; exact hnx)]
        simp only [node] at hty ⊢
        have hre := hΓ.ret
        rw [hc.1, if_pos rfl] at hre
        rw [hre.1]
        simp only [hidesCode, Bool.false_eq_true, if_false] at hks'
        exact hmarked (.inl rfl) rfl hc.2 ks' hks' _ _ _ hΓ hty
      · refine hkeep _ _ rfl rfl hks' (fun _ => ?_) (fun _ h => by cases h)
        cases hret : J.returns
        · exact .inl rfl
        · simp only [hret, true_and, Bool.not_eq_true] at hc
          cases hv : marked "never" as
          · simp [hret, hv, hc, Where.enter, hcl] at hr
          · exact .inr rfl
  · -- `break`
    rename_i l
    cases r1 <;> try (cases hw; done)
    split at ha
    · rename_i hr
      simp only [Bool.and_eq_true, Bool.not_eq_true', hth] at hr
      obtain ⟨ks', rfl, hks'⟩ := hcls ha
      intro Γ Γ' u hΓ hnx _ hfree _ hty
      rw [typed_node (by rw [hΓ.here]; exact hnx)]
      simp only [node] at hty ⊢
      obtain ⟨v, hv1, hv2⟩ := hty
      refine ⟨.is G.type, ?_, ?_⟩
      · obtain ⟨u', hu1, hu2⟩ := hΓ.targets.find hv1
        rw [hr.1, if_pos rfl] at hu2
        rw [hu1, hu2]
      · simp only [hidesCode, Bool.false_eq_true, if_false] at hks'
        exact hvalue (.inr ⟨l, rfl⟩) rfl ks' hks' _ _ _ hΓ (hnx rfl) hv2
    · rename_i hr
      obtain ⟨ks', rfl, hks'⟩ := hcls ha
      by_cases hc : hits ts1 l = true ∧ isCallOf J.marker ks = true
      · intro Γ Γ' u hΓ hnx _ hfree _ hty
        rw [typed_node (by rw [hΓ.here]; exact hnx)]
        simp only [node] at hty ⊢
        obtain ⟨v, hv1, hv2⟩ := hty
        refine ⟨.is G.type, ?_, ?_⟩
        · obtain ⟨u', hu1, hu2⟩ := hΓ.targets.find hv1
          rw [hc.1, if_pos rfl] at hu2
          rw [hu1, hu2]
        · simp only [hidesCode, Bool.false_eq_true, if_false] at hks'
          exact hmarked (.inr ⟨l, rfl⟩) rfl hc.2 ks' hks' _ _ _ hΓ hv2
      · refine hkeep _ _ rfl rfl hks' (fun h => by cases h) (fun _ h => ?_)
        cases h
        cases hh : hits ts1 l
        · rfl
        · simp only [hh, true_and, Bool.not_eq_true] at hc
          simp [hth, hh, hc] at hr
  · -- `?`
    have ha : Alike J.en n' (.mk .eTry (if carries .eTry then strip as else as)
        (if hidesCode .eTry then ks else treatL J (w.enter .eTry) (fun i => kidTargets ts r1 .eTry as i)
        (fun i => kidRole r1 .eTry as ks.length i) ks)) := by
      split at ha
      · rename_i e he
        rw [hJ] at ha
        exact ha
      · exact ha
    cases r1 <;> try (cases hw; done)
    obtain ⟨ks', rfl, hks'⟩ := hcls ha
    exact hkeep _ _ rfl rfl hks' (fun h => by cases h) (fun _ h => by cases h)
  · -- macros
    rename_i p t
    have ha : Alike J.en n' (.mk (.eMacro p t) (if carries (.eMacro p t) then strip as else as) ks) := by
      split at ha
      · rw [if_neg] at ha
        · exact ha
        · rintro rfl
          rw [callsMacro_iff.mpr ⟨_, rfl⟩] at hmk
          cases hmk
      · exact ha
    cases r1 <;> try (cases hw; done)
    obtain ⟨ks', rfl, hks'⟩ := hcls ha
    exact hkeep _ _ rfl rfl hks' (fun h => by cases h) (fun _ h => by cases h)
  · -- arms
    rename_i p
    obtain ⟨ks', rfl, hks'⟩ := hcls ha
    cases r1 <;> try (cases hw; done)
    · exact hkeep _ _ rfl rfl hks' (fun h => by cases h) (fun _ h => by cases h)
    · simp only [hidesCode, Bool.false_eq_true, if_false, if_true] at hks'
      intro Γ Γ' u hΓ hnx hu _ _ hty
      have h0 := hfit rfl rfl
      have hkr : ∀ n i, kidRole .branch (.arm p) as n i = .plain := by
        intro n i; simp only [kidRole, hnest rfl rfl (by simp)]; simp
      have hu := hu rfl rfl
      rw [onNestedKids_plain fun _ => hnest rfl rfl (by simp)] at hty
      rw [typed_node (by rw [hΓ.here]; exact hnx)]
      simp only [reduceCtorEq, if_false]
      replace hnx : Γ'.here.next = none := by rw [hΓ.here]; exact hnx rfl
      obtain ⟨s, hs, hty⟩ := hty
      refine ⟨s, by rw [hΓ.here]; exact hs, ?_⟩
      simp only [hkr, kidTargets, hth] at h0
      match ks, hty, hks', h0 with
      | [], hty, _, _ => exact hty.elim
      | [b], hty, hks', h0 =>
        simp only [treatL, wrapLast] at hks'
        obtain ⟨c, m, rfl, h1, h2⟩ := alikeL_inv hks'
        cases alikeL_nil h2
        obtain ⟨v, y, rfl, h3⟩ := ctor_inv h1
        have h0 := h0 [y] (by simp only [treatL, hkr, kidTargets, hth] at h3 ⊢; exact .cons h3 rfl)
        cases h0 with
        | cons h0 _ =>
          obtain ⟨t, ht⟩ := some_type (typedAs_mono b) hu hty R.unit
          rw [← hG]
          exact typed_construct (as := []) hP hnx (fits_plain h0 _ _ _ (hΓ.within s) ht)
      | [g, b], hty, hks', h0 =>
        simp only [treatL, wrapLast] at hks'
        obtain ⟨g', m, rfl, hg, h2⟩ := alikeL_inv hks'
        obtain ⟨c, m, rfl, h1, h2⟩ := alikeL_inv h2
        cases alikeL_nil h2
        obtain ⟨v, y, rfl, h3⟩ := ctor_inv h1
        have h0 := h0 [g', y] (by simp only [treatL, hkr, kidTargets, hth] at hg h3 ⊢; exact .cons hg (.cons h3 rfl))
        cases h0 with
        | cons h0 h4 => cases h4 with
          | cons h4 _ =>
            obtain ⟨s', h5, h6⟩ := hty
            obtain ⟨t, ht⟩ := some_type (typedAs_mono b) hu h6 R.unit
            rw [← hG]
            exact ⟨s', fits_plain h0 _ _ _ ((hΓ.within s).before s') h5,
              typed_construct (as := []) hP hnx (fits_plain h4 _ _ _ (hΓ.within s') ht)⟩
      | _ :: _ :: _ :: _, hty, _, _ => exact hty.elim
  · -- blocks
    obtain ⟨ks', rfl, hks'⟩ := hcls ha
    cases r1 <;> try (cases hw; done)
    · exact hkeep _ _ rfl rfl hks' (fun h => by cases h) (fun _ h => by cases h)
    · simp only [hidesCode, Bool.false_eq_true, if_false, if_true] at hks'
      exact hblock (.inl rfl) rfl _ _ rfl hks'
  · rename_i l
    obtain ⟨ks', rfl, hks'⟩ := hcls ha
    cases r1 with
    | plain => exact hkeep _ _ rfl rfl hks' (fun h => by cases h) (fun _ h => by cases h)
    | branch =>
      cases l with
      | some l => cases hw
      | none =>
        simp only [hidesCode, Bool.false_eq_true, if_false, if_true] at hks'
        exact hblock (.inr rfl) rfl _ _ rfl hks'
    | result =>
      cases l with
      | some l => cases hw
      | none =>
        simp only [hidesCode, Bool.false_eq_true, if_false, reduceCtorEq] at hks'
        intro Γ Γ' u hΓ hnx _ hfree _ hty
        rw [typed_node (by rw [hΓ.here]; exact hnx)]
        refine hstmts ks' (by intro i; simp only [kidTargets, hth]) rfl rfl hks' (fun i hi => ?_) _ _ _ _ hΓ
          (.inr ⟨rfl, hfree rfl, ?_, fun i hi => ?_⟩) hty
        · simp [kidRole, hi]
        · rintro rfl; cases hw
        · simp [kidRole, hi]
  · obtain ⟨ks', rfl, hks'⟩ := hcls ha
    cases r1 with
    | plain =>
      refine hkeep _ _ rfl rfl hks' (fun h => ?_) (fun l h => ?_)
      · subst h; simp_all
      · subst h; simp_all
    | branch =>
      cases k <;> try (cases hw; done)
      all_goals try (simp_all; done)
      simp only [hidesCode, Bool.false_eq_true, if_false] at hks'
      exact hcond rfl (by simp) _ _ rfl hks'
    | result =>
      cases k <;> try (cases hw; done)
      all_goals simp only [hidesCode, Bool.false_eq_true, if_false] at hks'
      case eIf => exact hcond rfl (by simp) _ _ rfl hks'
      case eBlock l h => exact absurd rfl (h _)
      case eUnsafe =>
        intro Γ Γ' u hΓ hnx _ hfree _ hty
        rw [typed_node (by rw [hΓ.here]; exact hnx)]
        simp only [reduceCtorEq, if_false]
        refine hstmts ks' (by intro i; simp only [kidTargets, hth]) rfl rfl hks' (fun i hi => ?_) _ _ _ _ hΓ
          (.inr ⟨rfl, hfree rfl, ?_, fun i hi => ?_⟩) hty
        · simp [kidRole, hi]
        · rintro rfl; cases hw
        · simp [kidRole, hi]
      case sExpr semi _ _ _ _ _ _ _ =>
        intro Γ Γ' u hΓ hnx _ hfree _ hty
        obtain rfl := hfree rfl
        rw [typed_node (by rw [hΓ.here]; exact hnx)]
        simp only [reduceCtorEq, if_false]
        cases semi with
        | true => cases hw
        | false =>
          have h0 := hfit rfl rfl ks' hks'
          simp only [node, kid] at hty ⊢
          cases h0 with
          | nil => exact hty.elim
          | cons h0 _ =>
            simp only [kidRole, kidTargets, hth, if_true] at h0
            exact fits_result h0 hΓ hty
      case eParen =>
        intro Γ Γ' u hΓ hnx _ hfree _ hty
        obtain rfl := hfree rfl
        rw [typed_node (by rw [hΓ.here]; exact hnx)]
        simp only [reduceCtorEq, if_false]
        have h0 := hfit rfl rfl ks' hks'
        simp only [node, kid] at hty ⊢
        cases h0 with
        | nil => exact hty.elim
        | cons h0 _ =>
          simp only [kidRole, kidTargets, hth, if_true] at h0
          exact fits_result h0 hΓ hty
      case eMatch =>
        intro Γ Γ' u hΓ hnx _ hfree _ hty
        obtain rfl := hfree rfl
        rw [typed_node (by rw [hΓ.here]; exact hnx)]
        simp only [reduceCtorEq, if_false]
        have h0 := hfit rfl rfl ks' hks'
        obtain ⟨t, h1, h2⟩ := hty
        refine ⟨t, ?_, fun d hd => ?_⟩
        · cases h0 with
          | nil => exact h1.elim
          | cons h0 _ =>
            simp only [kidRole, kidTargets, hth] at h0
            rw [if_neg (by simp)] at h0
            exact fits_plain h0 _ _ _ hΓ h1
        · cases h0 with
          | nil => cases hd
          | cons _ h0 =>
            have h3 := pairL_typedL (Q := fun _ d d' => ∀ Γ Γ' w, Moved J G.type ts1 Γ Γ' → each d Γ w →
              d' Γ' (.is G.type)) h0 fun i a a' h => by
                simp only [kidRole, kidTargets, hth] at h
                rw [if_pos ⟨trivial, by omega⟩] at h
                exact fun Γ Γ' w hΓ hd => fits_each h hΓ hd
            simp only [onNestedKids, typedL, typedAsL, List.tail_cons] at hd h2
            obtain ⟨d0, hd0, h4⟩ := h3.mem hd
            exact h4 _ _ _ (hΓ.on t) (h2 d0 hd0)
      case eLoop l _ _ _ _ _ _ _ =>
        intro Γ Γ' u hΓ hnx _ hfree _ hty
        obtain rfl := hfree rfl
        rw [typed_node (by rw [hΓ.here]; exact hnx)]
        simp only [reduceCtorEq, if_false]
        have h0 := hfit rfl rfl ks' hks'
        simp only [node, kid] at hty ⊢
        cases h0 with
        | nil => exact hty.elim
        | cons h0 _ =>
          simp only [kidRole, kidTargets, hth] at h0
          exact fits_plain h0 _ _ _ (hΓ.enterOurs l true) hty

end

end AutoEnums
