import Verif.Lemmas.TypingSim

/-! # Lemmas: types after and before -/

namespace AutoEnums

open Spec

section

variable {T Sc : Type} {R : Rules T Sc} {G : Generated T} {J : Job} {tr : Prop}

open TypeRules

/-! ## Surroundings after and before -/

/-- The second expectation is not stricter than the first. -/
def Want.lax (w' w : Want T) : Prop := w' = w ∨ w' = .never ∨ ∃ t, w' = .is t ∧ w = .free

theorem Want.lax_refl (w : Want T) : Want.lax w w := .inl rfl

theorem accepts_lax {w' w : Want T} (h : Want.lax w' w) {t : T} (ha : w'.accepts t) : w.accepts t := by
  rcases h with rfl | rfl | ⟨u, rfl, rfl⟩
  · exact ha
  · exact ha.elim
  · trivial

/-- The surroundings after and before. -/
structure Back (J : Job) (tr : Prop) (ts : List Target) (Γ' Γ : Around T Sc) : Prop where
  targets : ∀ l u', findTarget Γ'.targets l = some u' →
    ∃ u, findTarget Γ.targets l = some u ∧ Want.lax u' u ∧ (hits ts l = true → u = .free)
  ret : Want.lax Γ'.ret Γ.ret
  free : J.returns = true → Γ.ret = .free
  answer : tr → ∀ q, Γ'.answer = some q → Γ.answer = some q
  here : Γ.here = Γ'.here

variable {ts : List Target} {Γ' Γ : Around T Sc}

theorem Back.enter (h : Back J tr ts Γ' Γ) (l : Option String) (i : Bool) {u' u : Want T} (hu : Want.lax u' u)
    {o : Bool} (ho : o = true → u = .free) : Back J tr (⟨l, i, o⟩ :: ts) (Γ'.enter l i u') (Γ.enter l i u) := by
  refine ⟨fun x v hv => ?_, h.ret, h.free, h.answer, h.here⟩
  cases x with
  | none =>
    simp only [Around.enter, findTarget, hits] at hv ⊢
    split at hv
    · rename_i hi
      cases hv
      rw [if_pos hi, if_pos hi]
      exact ⟨u, rfl, hu, ho⟩
    · rename_i hi
      rw [if_neg hi, if_neg hi]
      exact h.targets _ _ hv
  | some x =>
    simp only [Around.enter, findTarget, hits] at hv ⊢
    split at hv
    · rename_i hi
      cases hv
      rw [if_pos hi, if_pos hi]
      exact ⟨u, rfl, hu, ho⟩
    · rename_i hi
      rw [if_neg hi, if_neg hi]
      exact h.targets _ _ hv

theorem Back.on (h : Back J tr ts Γ' Γ) (t : T) : Back J tr ts (Γ'.on t) (Γ.on t) :=
  ⟨h.targets, h.ret, h.free, h.answer, by rw [Around.on, Around.on, h.here]⟩

theorem Back.within (h : Back J tr ts Γ' Γ) (s : Sc) : Back J tr ts (Γ'.within s) (Γ.within s) :=
  ⟨h.targets, h.ret, h.free, h.answer, by rw [Around.within, Around.within, h.here]⟩

theorem Back.before (h : Back J tr ts Γ' Γ) (s : Sc) : Back J tr ts (Γ'.before s) (Γ.before s) :=
  ⟨h.targets, h.ret, h.free, h.answer, by rw [Around.before, Around.before, h.here]⟩

theorem Back.inside (h : Back J tr ts Γ' Γ) : Back J tr ts Γ'.inside Γ.inside :=
  ⟨h.targets, h.ret, h.free, h.answer, by rw [Around.inside, Around.inside, h.here]⟩

theorem Back.withTries (h : Back J tr ts Γ' Γ) (t : T) :
    Back J tr ts { Γ' with tries := some t } { Γ with tries := some t } :=
  ⟨h.targets, h.ret, h.free, fun _ _ => id, h.here⟩

theorem hits_map_false : ∀ (ts : List Target) (l : Option String), hits (ts.map ({ · with ours := false })) l = false
  | [], l => by cases l <;> rfl
  | t :: ts, none => by
    simp only [List.map_cons, hits]
    split
    · rfl
    · exact hits_map_false ts none
  | t :: ts, some l => by
    simp only [List.map_cons, hits]
    split
    · rfl
    · exact hits_map_false ts (some l)

theorem through_hits {k : Kind} {as : List Attr} {l : Option String} (h : hits (through ts k as) l = true) :
    hits ts l = true := by
  unfold through at h
  split at h
  · rw [hits_map_false] at h; cases h
  · exact h

theorem Back.through (h : Back J tr ts Γ' Γ) (k : Kind) (as : List Attr) : Back J tr (through ts k as) Γ' Γ := by
  refine ⟨fun l u' hu => ?_, h.ret, h.free, h.answer, h.here⟩
  obtain ⟨u, h1, h2, h3⟩ := h.targets l u' hu
  exact ⟨u, h1, h2, fun hh => h3 (through_hits hh)⟩

/-! ## Nodes that stay -/

/-- What has a type had it before. -/
def Looser (J : Job) (tr : Prop) (ts : List Target) (d' d : Judge T Sc) : Prop :=
  ∀ Γ' Γ w' w, Back J tr ts Γ' Γ → Want.lax w' w → d' Γ' w' → d Γ w

theorem PairL.length {A : Type} {P : Nat → A → A → Prop} {l l' : List A} (h : PairL P l l') :
    l.length = l'.length := by
  induction h with
  | nil => rfl
  | cons _ _ ih => simp [ih]

theorem PairL.withMem {A : Type} {P : Nat → A → A → Prop} {l l' : List A} (h : PairL P l l') :
    PairL (fun i a a' => P i a a' ∧ a' ∈ l') l l' := by
  induction h with
  | nil => exact .nil
  | cons h _ ih => exact .cons ⟨h, by simp⟩ (ih.imp fun i a a' h => ⟨h.1, by simp [h.2]⟩)

theorem lax_kid {tss : Nat → List Target} {ds' ds : List (Judge T Sc)}
    (h : PairL (fun i => Looser J tr (tss i)) ds' ds) (i : Nat) : Looser J tr (tss i) (kid ds' i) (kid ds i) := by
  intro Γ' Γ w' w hΓ hw
  unfold kid
  rcases h.get i with ⟨h1, h2⟩ | ⟨d', d, h1, h2, h3⟩
  · rw [h1, h2]; exact id
  · rw [h1, h2]; exact h3 _ _ _ _ hΓ hw

theorem lax_each (t : T) {d' d : Judge T Sc} (h : Looser J tr ts d' d) : Looser J tr ts (each d') (each d) := by
  intro Γ' Γ w' w hΓ hw hd
  rcases hw with rfl | rfl | ⟨u, rfl, rfl⟩
  · unfold each at hd ⊢
    split at hd
    · obtain ⟨u, hu⟩ := hd
      exact ⟨u, h _ _ _ _ hΓ (.inl rfl) hu⟩
    · exact h _ _ _ _ hΓ (.inl rfl) hd
  · unfold each at hd ⊢
    dsimp only at hd
    split
    · exact ⟨t, h _ _ _ _ hΓ (.inr (.inl rfl)) hd⟩
    · exact h _ _ _ _ hΓ (.inr (.inl rfl)) hd
  · exact ⟨u, h _ _ _ _ hΓ (.inl rfl) hd⟩

/-- A block whose last statement changes. -/
theorem stmts_back {w' w : Want T} :
    ∀ {ds' ds : List (Judge T Sc)} {P : Nat → Judge T Sc → Judge T Sc → Prop} {Γ' Γ : Around T Sc},
    Back J tr ts Γ' Γ → PairL P ds' ds →
    (∀ i d' d, i + 1 < ds'.length → P i d' d → Looser J tr ts d' d) →
    (∀ i d' d, i + 1 = ds'.length → P i d' d → ∀ Γ' Γ, Back J tr ts Γ' Γ → d' Γ' w' → d Γ w) →
    (ds' = [] → w'.accepts R.unit → w.accepts R.unit) →
    stmts R ds' Γ' w' → stmts R ds Γ w := by
  intro ds'
  induction ds' with
  | nil => intro ds P Γ' Γ hΓ h _ _ h0 hs; cases h; exact h0 rfl hs
  | cons d ds' ih =>
    intro ds P Γ' Γ hΓ h hk hl _ hs
    cases h with
    | cons h1 h2 =>
      cases h2 with
      | nil => exact hl 0 _ _ rfl h1 _ _ hΓ hs
      | cons h3 h4 =>
        obtain ⟨s, hs1, hs2⟩ := hs
        refine ⟨s, hk 0 _ _ (by simp) h1 _ _ _ _ (hΓ.before s) (.inl rfl) hs1,
          ih (P := fun i => P (i + 1)) (hΓ.within s) (.cons h3 h4) ?_ ?_ (by simp) hs2⟩
        · exact fun i d d' hi => hk (i + 1) d d' (by simpa using hi)
        · exact fun i d d' hi => hl (i + 1) d d' (by simpa using hi)

theorem lax_stmts {ds' ds : List (Judge T Sc)} (h : PairL (fun _ => Looser J tr ts) ds' ds) :
    Looser J tr ts (stmts R ds') (stmts R ds) := fun _ _ _ _ hΓ hw =>
  stmts_back hΓ h (fun _ _ _ _ hp => hp) (fun _ _ _ _ hp _ _ hΓ => hp _ _ _ _ hΓ hw) (fun _ => accepts_lax hw)

theorem lax_kinds (hΓ : Back J tr ts Γ' Γ) :
    ∀ {ds' ds : List (Judge T Sc)} {us : List T}, PairL (fun _ => Looser J tr ts) ds' ds → kinds ds' Γ' us → kinds ds Γ us
  | [], _, [], h, _ => by cases h; trivial
  | d :: ds, _, u :: us, h, hk => by
    cases h with
    | cons h1 h2 => exact ⟨h1 _ _ _ _ hΓ (.inl rfl) hk.1, lax_kinds hΓ h2 hk.2⟩
  | [], _, _ :: _, _, hk => hk.elim
  | _ :: _, _, [], _, hk => hk.elim

theorem holds_lax {w' w : Want T} (h : Want.lax w' w) {P : T → Prop} (hp : w'.holds P) : w.holds P := by
  rcases h with rfl | rfl | ⟨t, rfl, rfl⟩
  · exact hp
  · exact holds_le (.inl rfl) hp
  · exact ⟨t, hp⟩

theorem lax_other {k : Kind} {ds' ds : List (Judge T Sc)}
    (h : PairL (fun _ => Looser J tr ts) ds' ds) : Looser J tr ts (other R k ds') (other R k ds) := by
  rintro Γ' Γ w' w hΓ hw ⟨us, h1, h2⟩
  exact ⟨us, lax_kinds hΓ h h1, by rw [hΓ.here]; exact holds_lax hw h2⟩

theorem lax_freeze {k : Kind} {ks' ks : List Node} (h : noAttrsL ks' = noAttrsL ks) :
    Looser J tr ts (freeze R k ks') (freeze R k ks) := by
  rintro Γ' Γ w' w hΓ hw ⟨u, h1, h2⟩
  rw [h, ← hΓ.here] at h1
  exact ⟨u, h1, accepts_lax hw h2⟩

theorem lax_value {ds' ds : List (Judge T Sc)} (h : PairL (fun _ => Looser J tr ts) ds' ds) :
    Looser J tr ts (value R ds') (value R ds) := by
  intro Γ' Γ u' u hΓ hu hv
  unfold value at hv ⊢
  rw [h.isEmpty]
  split
  · rw [if_pos (by assumption)] at hv; exact accepts_lax hu hv
  · rw [if_neg (by assumption)] at hv
    exact lax_each R.unit (lax_kid h 0) _ _ _ _ hΓ hu hv

/-- A node that stays what it is and is not wrapped. -/
theorem node_back {k : Kind} {as : List Attr} {ks' ks : List Node} {ds' ds : List (Judge T Sc)}
    (hk : hidesCode k = false → isFrozen k = false →
      PairL (fun i => Looser J tr (kidTargets ts .plain k as i)) ds' ds)
    (hfr : hidesCode k = true ∨ isFrozen k = true → noAttrsL ks' = noAttrsL ks)
    (hcon : k = .eCall → constructed G.name ks' = constructed G.name ks)
    (hif : k = .eIf → isIf ks'[2]? = isIf ks[2]?)
    (htr : k = .eTry → tr) :
    Looser J tr ts (node R G k ks' ds') (node R G k ks ds) := by
  intro Γ' Γ w' w hΓ0 hw hd
  have hΓ := hΓ0.through k as
  by_cases hoth : isSimple k = true
  · have : ∀ ks ds Γ w, node R G k ks ds Γ w = other R k ds Γ w := by
      intro ks ds Γ w; cases k <;> first | rfl | cases hoth
    rw [this] at hd ⊢
    have h2 := (kids_other (ts := ts) (as := as) (n := ks.length) (isSimple_other hoth)).2
    refine lax_other ((hk ?_ ?_).imp fun i a a' h => ?_) _ _ _ _ hΓ hw hd
    · cases k <;> first | rfl | cases hoth
    · cases k <;> first | rfl | cases hoth
    · rw [h2] at h; exact h
  have hp : hidesCode k = false → isFrozen k = false → (∀ i, kidTargets ts .plain k as i = through ts k as) →
      PairL (fun _ => Looser J tr (through ts k as)) ds' ds := by
    intro h1 h2 h3
    refine (hk h1 h2).imp fun i a a' h => ?_
    rw [h3] at h
    exact h
  cases k <;> try (exact absurd rfl hoth)
  case block => exact lax_stmts (hp rfl rfl fun _ => rfl) _ _ _ _ hΓ hw hd
  case eUnsafe => exact lax_stmts (hp rfl rfl fun _ => rfl) _ _ _ _ hΓ hw hd
  case eConst => exact lax_stmts (hp rfl rfl fun _ => rfl) _ _ _ _ hΓ hw hd
  case eBlock l =>
    cases l with
    | none => exact lax_stmts (hp rfl rfl fun _ => rfl) _ _ _ _ hΓ hw hd
    | some l =>
      have h := hk rfl rfl
      simp only [kidTargets] at h
      exact lax_stmts h _ _ _ _ (hΓ.enter _ _ hw (by simp)) hw hd
  case sExpr semi =>
    have h := lax_kid (hp rfl rfl fun i => by cases semi <;> rfl) 0
    cases semi with
    | false => exact h _ _ _ _ hΓ hw hd
    | true =>
      rcases hd with hd | ⟨⟨t, hd⟩, ha⟩
      · exact .inl (h _ _ _ _ hΓ (.inl rfl) hd)
      · exact .inr ⟨⟨t, h _ _ _ _ hΓ (.inl rfl) hd⟩, accepts_lax hw ha⟩
  case eParen => exact lax_kid (hp rfl rfl fun _ => rfl) 0 _ _ _ _ hΓ hw hd
  case eGroup => exact lax_kid (hp rfl rfl fun _ => rfl) 0 _ _ _ _ hΓ hw hd
  case sLocal p =>
    have h := hp rfl rfl fun _ => rfl
    obtain ⟨t, s, h3, h4, hd⟩ := hd
    refine ⟨t, s, by rw [hΓ.here]; exact h3, by rw [leaves_eq hΓ.here]; exact h4, ?_⟩
    cases h with
    | nil => exact accepts_lax hw hd
    | cons h1 h2 =>
      obtain ⟨h3, h5, h6⟩ := hd
      refine ⟨h1 _ _ _ _ hΓ.inside (.inl rfl) h3, fun e he => ?_,
        h6.imp (h1 _ _ _ _ hΓ.inside (.inl rfl)) (accepts_lax hw)⟩
      obtain ⟨e0, he0, hke⟩ := h2.mem he
      exact hke _ _ _ _ hΓ.inside (.inl rfl) (h5 e0 he0)
  case eLet p =>
    obtain ⟨t, s, h1, h2, h3, h4⟩ := hd
    exact ⟨t, s, lax_kid (hp rfl rfl fun _ => rfl) 0 _ _ _ _ hΓ.inside (.inl rfl) h1, by rw [hΓ.here]; exact h2,
      by rw [leaves_eq hΓ.here]; exact h3, accepts_lax hw h4⟩
  case eBinary op =>
    have h := hp rfl rfl fun _ => rfl
    simp only [node] at hd ⊢
    split
    · rw [if_pos (by assumption)] at hd
      obtain ⟨s, h1, h2, h3⟩ := hd
      exact ⟨s, lax_kid h 0 _ _ _ _ (hΓ.before s) (.inl rfl) h1, lax_kid h 1 _ _ _ _ (hΓ.within s) (.inl rfl) h2,
        accepts_lax hw h3⟩
    · rw [if_neg (by assumption)] at hd
      exact lax_other h _ _ _ _ hΓ hw hd
  case sItem => exact accepts_lax hw hd
  case eMatch =>
    have h := hp rfl rfl fun _ => rfl
    obtain ⟨t, h1, h2⟩ := hd
    refine ⟨t, lax_kid h 0 _ _ _ _ hΓ (.inl rfl) h1, fun d hd => ?_⟩
    cases h with
    | nil => cases hd
    | cons _ h =>
      obtain ⟨d0, hd0, hkd⟩ := h.mem hd
      exact lax_each R.unit hkd _ _ _ _ (hΓ.on t) hw (h2 d0 hd0)
  case arm p =>
    have h := hp rfl rfl fun _ => rfl
    obtain ⟨s, h1, h2⟩ := hd
    refine ⟨s, by rw [hΓ.here]; exact h1, ?_⟩
    cases h with
    | nil => exact h2
    | cons h3 h => cases h with
      | nil => exact h3 _ _ _ _ (hΓ.within s) hw h2
      | cons h4 h => cases h with
        | nil =>
          obtain ⟨s', h2, h5⟩ := h2
          exact ⟨s', h3 _ _ _ _ ((hΓ.within s).before s') (.inl rfl) h2, h4 _ _ _ _ (hΓ.within s') hw h5⟩
        | cons => exact h2
  case eIf =>
    have h := hp rfl rfl fun _ => rfl
    have hif := hif rfl
    obtain ⟨s, h0, hd⟩ := hd
    refine ⟨s, lax_kid h 0 _ _ _ _ (hΓ.before s) (.inl rfl) h0, ?_⟩
    rw [← hif]
    cases h with
    | nil => exact hd
    | cons h3 h => cases h with
      | nil => exact hd
      | cons h4 h => cases h with
        | nil => exact ⟨h4 _ _ _ _ (hΓ.within s) (.inl rfl) hd.1, accepts_lax hw hd.2⟩
        | cons h5 h => cases h with
          | nil =>
            refine ⟨lax_each R.unit h4 _ _ _ _ (hΓ.within s) hw hd.1, ?_⟩
            have h6 := hd.2
            split
            · rw [if_pos (by assumption)] at h6
              exact h5 _ _ _ _ hΓ hw h6
            · rw [if_neg (by assumption)] at h6
              exact lax_each R.unit h5 _ _ _ _ hΓ hw h6
          | cons => exact hd
  case eLoop l =>
    have h := hk rfl rfl
    simp only [kidTargets] at h
    exact lax_kid h 0 _ _ _ _ (hΓ.enter _ _ hw (by simp)) (.inl rfl) hd
  case eWhile l =>
    have h := hk rfl rfl
    simp only [kidTargets] at h
    have hΓ2 := hΓ.enter l true (o := false) (Want.lax_refl (.is R.unit)) (by simp)
    obtain ⟨s, h1, h2, h3⟩ := hd
    exact ⟨s, lax_kid h 0 _ _ _ _ (hΓ2.before s) (.inl rfl) h1, lax_kid h 1 _ _ _ _ (hΓ2.within s) (.inl rfl) h2,
      accepts_lax hw h3⟩
  case eForLoop l p =>
    have h := hk rfl rfl
    simp only [kidTargets] at h
    obtain ⟨t, s, h1, h2, h3, h4⟩ := hd
    have h0 := lax_kid h 0
    have h5 := lax_kid h 1
    exact ⟨t, s, h0 _ _ _ _ hΓ (.inl rfl) h1, by rw [hΓ.here]; exact h2,
      h5 _ _ _ _ ((hΓ.enter l true (Want.lax_refl (.is R.unit)) (by simp)).within s) (.inl rfl) h3,
      accepts_lax hw h4⟩
  case eBreak l =>
    obtain ⟨u', h1, h2⟩ := hd
    obtain ⟨u, h3, h4, -⟩ := hΓ.targets l u' h1
    exact ⟨u, h3, lax_value (hp rfl rfl fun _ => rfl) _ _ _ _ hΓ h4 h2⟩
  case eContinue => trivial
  case eReturn =>
    simp only [node] at hd ⊢
    exact lax_value (hp rfl rfl fun _ => rfl) _ _ _ _ hΓ hΓ.ret hd
  case eTry =>
    obtain ⟨t, q, h1, h2, h3⟩ := hd
    exact ⟨t, q, lax_kid (hp rfl rfl fun _ => rfl) 0 _ _ _ _ hΓ (.inl rfl) h1, hΓ.answer (htr rfl) _ h2,
      holds_lax hw h3⟩
  case eTryBlock =>
    obtain ⟨t, u, h1, h2, h3⟩ := hd
    exact ⟨t, u, lax_stmts (hp rfl rfl fun _ => rfl) _ _ _ _ (hΓ.withTries u) (.inl rfl) h1,
      by rw [hΓ.here]; exact h2, accepts_lax hw h3⟩
  case eMacro p t =>
    simp only [node] at hd ⊢
    split
    · trivial
    · rw [if_neg (by assumption)] at hd
      exact lax_freeze (hfr (.inl rfl)) _ _ _ _ hΓ hw hd
  case sMacro p t =>
    simp only [node] at hd ⊢
    split
    · trivial
    · rw [if_neg (by assumption)] at hd
      exact lax_freeze (hfr (.inl rfl)) _ _ _ _ hΓ hw hd
  case eClosure => exact lax_freeze (hfr (.inr rfl)) _ _ _ _ hΓ hw hd
  case eAsync => exact lax_freeze (hfr (.inr rfl)) _ _ _ _ hΓ hw hd
  case eVerbatim => exact lax_freeze (hfr (.inl rfl)) _ _ _ _ hΓ hw hd
  case eTuple =>
    have h := hp rfl rfl fun _ => rfl
    simp only [node] at hd ⊢
    rw [h.isEmpty]
    split
    · rw [if_pos (by assumption)] at hd; exact accepts_lax hw hd
    · rw [if_neg (by assumption)] at hd
      exact lax_other h _ _ _ _ hΓ hw hd
  case ePath q p =>
    simp only [node] at hd ⊢
    split
    · rw [if_pos (by assumption)] at hd; exact hd
    · rw [if_neg (by assumption)] at hd
      exact lax_other (hp rfl rfl fun _ => rfl) _ _ _ _ hΓ hw hd
  case eCall =>
    have h := hp rfl rfl fun _ => rfl
    simp only [node] at hd ⊢
    rw [← hcon rfl]
    split at hd
    · obtain ⟨t, h1, h2, h3⟩ := hd
      exact ⟨t, lax_kid h 1 _ _ _ _ hΓ (.inl rfl) h1, h2, accepts_lax hw h3⟩
    · exact lax_other h _ _ _ _ hΓ hw hd
  case eMethodCall => exact lax_other (hp rfl rfl fun _ => rfl) _ _ _ _ hΓ hw hd

theorem lax_confine {k : Kind} {d' d : Judge T Sc} (h : Looser J tr ts d' d) :
    Looser J tr ts (confine k d') (confine k d) := by
  intro Γ' Γ w' w hΓ hw hd
  unfold confine at hd ⊢
  split
  · rw [if_pos (by assumption)] at hd
    exact h _ _ _ _ hΓ hw hd
  · rw [if_neg (by assumption)] at hd
    exact ⟨by rw [leaves_eq hΓ.here, hΓ.here]; exact hd.1, h _ _ _ _ hΓ.inside hw hd.2⟩

/-! ## Code that stays as it is -/

theorem pairL_same {P : Nat → Judge T Sc → Judge T Sc → Prop} : ∀ {l : List Node},
    (∀ i, ∀ n ∈ l, P i (typed R G n) (typed R G n)) → PairL P (typedL R G l) (typedL R G l)
  | [], _ => .nil
  | n :: l, h => .cons (h 0 n (by simp)) (pairL_same fun i n hn => h (i + 1) n (by simp [hn]))

theorem kidTargets_foreign {k : Kind} {as : List Attr} {i : Nat} (h : ∀ t ∈ ts, t.ours = false) :
    ∀ t ∈ kidTargets ts .plain k as i, t.ours = false := by
  have h1 : ∀ t ∈ Spec.through ts k as, t.ours = false := by
    unfold Spec.through
    split
    · intro t ht
      obtain ⟨x, -, rfl⟩ := List.mem_map.mp ht
      rfl
    · exact h
  intro t ht
  unfold kidTargets at ht
  split at ht
  · cases ht
  · cases ht
  · rcases List.mem_cons.mp ht with rfl | ht
    · rfl
    · exact h1 t ht
  · rcases List.mem_cons.mp ht with rfl | ht
    · rfl
    · exact h1 t ht
  · split at ht
    · exact h1 t ht
    · rcases List.mem_cons.mp ht with rfl | ht
      · rfl
      · exact h1 t ht
  · rcases List.mem_cons.mp ht with rfl | ht
    · rfl
    · exact h1 t ht
  · exact h1 t ht

theorem asks_kid {k : Kind} {as : List Attr} {ks : List Node} (h : asks (.mk k as ks) = true → tr)
    (hf : isFrozen k = false) {n : Node} (hn : n ∈ ks) : asks n = true → tr := by
  intro ha
  apply h
  have : asksL ks = true := by
    clear h
    induction ks with
    | nil => cases hn
    | cons a l ih =>
      rw [asksL, Bool.or_eq_true]
      rcases List.mem_cons.mp hn with rfl | hn
      · exact .inl ha
      · exact .inr (ih hn)
  rw [asks, hf, this]
  simp

theorem asks_try {as : List Attr} {ks : List Node} (h : asks (.mk .eTry as ks) = true → tr) : tr :=
  h (by simp [asks])

theorem typed_lax : ∀ (n : Node) (ts : List Target), (∀ t ∈ ts, t.ours = false) →
    (asks n = true → tr) → Looser J tr ts (typed R G n) (typed R G n) := by
  refine Node.ind (P := fun n => ∀ (ts : List Target), (∀ t ∈ ts, t.ours = false) →
    (asks n = true → tr) → Looser J tr ts (typed R G n) (typed R G n)) ?_
  intro k as ks ih ts hts htr
  rw [typed]
  refine lax_confine (node_back (as := as) (fun _ hf => ?_) (fun _ => rfl) (fun _ => rfl) (fun _ => rfl) (fun h => ?_))
  · exact pairL_same fun i n hn => ih n hn _ (kidTargets_foreign hts) (asks_kid htr hf hn)
  · subst h
    exact asks_try htr

theorem typed_back {n : Node} (htr : asks n = true → tr) (h : Back J tr ts Γ' Γ) {t : T}
    (ht : typed R G n Γ' (.is t)) : typed R G n Γ (.is t) := by
  refine typed_lax n [] (by simp) htr Γ' Γ _ _ ⟨fun l u' hu => ?_, h.ret, h.free, h.answer, h.here⟩ (.inl rfl) ht
  obtain ⟨u, h1, h2, -⟩ := h.targets l u' hu
  exact ⟨u, h1, h2, fun hh => by cases l <;> cases hh⟩

/-! ## The treatment -/

/-- If the new node has a type, so had the old one. -/
def Returns (R : Rules T Sc) (G : Generated T) (J : Job) (tr : Prop) (ts : List Target) (r : Role) (a' a : Node) : Prop :=
  ∀ Γ' Γ, Back J tr ts Γ' Γ →
    match r with
    | .plain => ∀ w' w, Want.lax w' w → typed R G a' Γ' w' → typedIn R G J.marker a Γ w
    | .result => ∀ t, typed R G a' Γ' (.is t) → typedIn R G J.marker a Γ .free
    | .branch => ∀ t, typed R G a' Γ' (.is t) →
      if isIf (some a) then typedIn R G J.marker a Γ .free else ∃ u, typedIn R G J.marker a Γ (.is u)

theorem returns_plain {r : Role} {a' a : Node} (h : Looser J tr ts (typed R G a') (typedIn R G J.marker a)) :
    Returns R G J tr ts r a' a := by
  intro Γ' Γ hΓ
  cases r with
  | plain => exact fun w' w => h _ _ w' w hΓ
  | result => exact fun t => h _ _ _ _ hΓ (.inr (.inr ⟨t, rfl, rfl⟩))
  | branch =>
    intro t ht
    split
    · exact h _ _ _ _ hΓ (.inr (.inr ⟨t, rfl, rfl⟩)) ht
    · exact ⟨t, h _ _ _ _ hΓ (.inl rfl) ht⟩

theorem Returns.lax {a' a : Node} (h : Returns R G J tr ts .plain a' a) :
    Looser J tr ts (typed R G a') (typedIn R G J.marker a) := fun Γ' Γ w' w hΓ hw => h Γ' Γ hΓ w' w hw

theorem pairL_typedL_back {m : String} {P : Nat → Node → Node → Prop} {Q : Nat → Judge T Sc → Judge T Sc → Prop}
    {ks' ks : List Node} (h : PairL P ks' ks) (hPQ : ∀ i a' a, P i a' a → Q i (typed R G a') (typedIn R G m a)) :
    PairL Q (typedL R G ks') (typedInL R G m ks) := by
  induction h generalizing Q with
  | nil => exact .nil
  | cons h _ ih => exact .cons (hPQ _ _ _ h) (ih fun i a a' => hPQ (i + 1) a a')

/-- What a constructor is applied to has a type. -/
theorem typed_construct_inv {as : List Attr} {v : Ident} {e : Node} {w : Want T}
    (h : typed R G (construct as G.name v e) Γ w) :
    Γ.leaves Γ.here.scope ∧ (∃ t, typed R G e Γ.inside (.is t)) ∧ w.accepts G.type := by
  unfold construct at h
  rw [typed, confine, if_neg (by simp [binds])] at h
  simp only [node, constructed, Node.kind, variantOf_path] at h
  obtain ⟨h0, t, h1, -, h2⟩ := h
  exact ⟨h0, ⟨t, by simpa [typedL, kid] using h1⟩, h2⟩

theorem typed_construct_last {as : List Attr} {v : Ident} {e : Node} {w : Want T} (hn : Γ.here.next = none)
    (h : typed R G (construct as G.name v e) Γ w) : (∃ t, typed R G e Γ (.is t)) ∧ w.accepts G.type := by
  have := (typed_construct_inv h).2
  rwa [inside_eq hn] at this

/-- If the treated code has a type, so had the original. -/
theorem back_treat (hJ : J.tries = false) (hG : G.name = J.en) : ∀ (n : Node)
    (w : Where) (ts : List Target) (r : Role) (n' : Node), w.closure = false → checkable J r n = true →
    ctors J.en n = 0 → grammatical n = true → (asks n = true → tr) → Alike J.en n' (treat J w ts r n) →
    Returns R G J tr ts r n' n := by
  refine Node.ind (P := fun n => ∀ (w : Where) (ts : List Target) (r : Role) (n' : Node), w.closure = false →
    checkable J r n = true → ctors J.en n = 0 → grammatical n = true → (asks n = true → tr) →
    Alike J.en n' (treat J w ts r n) → Returns R G J tr ts r n' n) ?_
  intro k as ks ih w ts r n' hcl hcp hct hgr htr ha
  rw [checkable] at hcp
  simp only [Bool.and_eq_true, Bool.not_eq_true', Bool.or_eq_true] at hcp
  obtain ⟨⟨⟨hw, hnn⟩, hinert⟩, hkids⟩ := hcp
  replace hkids : hidesCode k = false → isFrozen k = false →
      checkableL J (fun i => kidRole (role J r k as ks) k as ks.length i) ks = true := by
    intro h1 h2
    rcases hkids with (h | h) | h
    · rw [h1] at h; cases h
    · rw [h2] at h; cases h
    · exact h
  simp only [ctors, weigh_mk] at hct
  have hnest : carries k = true → marked "nested" as = false := fun h => by rw [h] at hnn; exact hnn
  -- markers
  cases hmk : callsMacro J.marker k && ks.length == 1 with
  | true =>
    have hmk0 := hmk
    rw [Bool.and_eq_true, beq_iff_eq] at hmk0
    obtain ⟨t, rfl⟩ := callsMacro_iff.mp hmk0.1
    match ks, hmk0.2 with
    | [e], _ =>
      rw [treat.eq_def] at ha
      simp only [assemble, if_true] at ha
      obtain ⟨v, y, rfl, hy⟩ := ctor_inv ha
      have he0 : ctors J.en e = 0 := by
        simp only [weighL_cons] at hct
        simp only [ctors]; omega
      have hye : y = e := by
        have h3 : ctors J.en y = 0 := by rw [hy.ctors, he0]
        unfold Alike at hy
        rwa [noAttrs_blur _ he0, noAttrs_blur _ h3] at hy
      subst hye
      refine returns_plain fun Γ' Γ u' u hΓ hu hty => ?_
      rw [typedIn_marker hmk]
      rw [← hG] at hty
      obtain ⟨hs, ⟨t, ht⟩, ha⟩ := typed_construct_inv hty
      refine ⟨by rw [leaves_eq hΓ.here, hΓ.here]; exact hs, ⟨t, ?_⟩, accepts_lax hu ha⟩
      have := typed_back (asks_kid htr rfl (by simp)) hΓ.inside ht
      simpa [typedL, kid] using this
  | false =>
  rw [treat.eq_def] at ha
  dsimp only at ha
  have hn : (isExpression k && marked "nested" as) = false := by
    cases hx : isExpression k with
    | false => rfl
    | true => rw [hnest (by cases k <;> first | exact hx | rfl)]; rfl
  have hD : typedIn R G J.marker (.mk k as ks) = confine k (node R G k ks (typedInL R G J.marker ks)) := by
    rw [typedIn_node hmk, nestedExpr, hn, onNested_false, onNestedKids_plain hnest]
  -- the kids
  generalize hr1 : role J r k as ks = r1 at ha hw hkids
  have hfit : hidesCode k = false → isFrozen k = false → ∀ ks',
      AlikeL J.en ks' (treatL J (w.enter k) (fun i => kidTargets ts r1 k as i)
        (fun i => kidRole r1 k as ks.length i) ks) →
      PairL (fun i => Returns R G J tr (kidTargets ts r1 k as i) (kidRole r1 k as ks.length i)) ks' ks := by
    intro hh hf ks' hks'
    have hcl' : (w.enter k).closure = false := by
      cases k <;> first | exact hcl | cases hf
    have : ∀ (l l' : List Node) (ts : Nat → List Target) (rs : Nat → Role), (∀ n ∈ l, n ∈ ks) →
        weighL (isCtor J.en) l = 0 → checkableL J rs l = true →
        AlikeL J.en l' (treatL J (w.enter k) ts rs l) →
        PairL (fun i => Returns R G J tr (ts i) (rs i)) l' l := by
      intro l
      induction l with
      | nil => intro l' ts rs _ _ _ h; rw [alikeL_nil h]; exact .nil
      | cons a l ihl =>
        intro l' ts rs hmem hc hs h
        rw [checkableL, Bool.and_eq_true] at hs
        rw [weighL_cons] at hc
        simp only [treatL] at h
        obtain ⟨a', m, rfl, h1, h2⟩ := alikeL_inv h
        exact .cons (ih a (hmem a (by simp)) _ _ _ _ hcl' hs.1 (by simp only [ctors]; omega)
          (grammaticalL_mem (grammatical_mk hgr hh).2 (hmem a (by simp))) (asks_kid htr hf (hmem a (by simp))) h1)
          (ihl m _ _ (fun n hn => hmem n (by simp [hn])) (by omega) hs.2 h2)
    exact this ks ks' _ _ (fun _ h => h) (by omega) (hkids hh hf) hks'
  have hk0 : isCtor J.en (k, as) = 0 := by omega
  have hcls : ∀ {ks2}, Alike J.en n' (.mk k (if carries k then strip as else as) ks2) →
      ∃ ks', n' = .mk k (if carries k then strip as else as) ks' ∧ AlikeL J.en ks' ks2 := by
    intro ks2 h
    obtain ⟨k', ks', rfl, h1, h2⟩ := h.inv
    rw [kind_of_blur hk0 h1]
    exact ⟨ks', rfl, h2⟩
  have hkr : ∀ n i, kidRole .plain k as n i = .plain := by
    intro n i
    unfold kidRole
    split <;> simp
    · rw [hnest rfl]; simp
    · rw [hnest rfl]; simp
  -- nodes that stay
  have hkeep : ∀ as' ks', n' = .mk k as' ks' → r1 = .plain →
      AlikeL J.en ks' (if hidesCode k then ks else treatL J (w.enter k) (fun i => kidTargets ts r1 k as i)
        (fun i => kidRole r1 k as ks.length i) ks) →
      Returns R G J tr ts r n' (.mk k as ks) := by
    rintro as' ks' rfl rfl hks'
    apply returns_plain
    rw [hD, typed]
    refine lax_confine (node_back (as := as) ?_ ?_ ?_ ?_ ?_)
    · intro hh hf
      rw [hh] at hks'
      refine pairL_typedL_back (hfit hh hf ks' hks') fun i a' a h => ?_
      rw [hkr] at h
      exact h.lax
    · intro hhf
      by_cases hh : hidesCode k = true
      · rw [if_pos hh] at hks'
        have h1 : ctors J.en (.mk .block [] ks) = 0 := by
          simp only [ctors, weigh_mk]
          have : isCtor J.en (.block, []) = 0 := rfl
          omega
        have h2 : Alike J.en (.mk .block [] ks') (.mk .block [] ks) := .node _ _ hks'
        have h3 : ctors J.en (.mk .block [] ks') = 0 := by rw [h2.ctors, h1]
        unfold Alike at h2
        rw [noAttrs_blur _ h1, noAttrs_blur _ h3] at h2
        cases h2
        rfl
      · have hf := hhf.resolve_left hh
        rw [if_neg hh] at hks'
        obtain ⟨hi1, hi2, hi3⟩ := inert_code (hinert.resolve_left (by rw [hf]; simp))
        have hkt : ∀ i, kidTargets ts .plain k as i = [] := by
          intro i; cases k <;> first | rfl | cases hf
        have hret' : (w.enter k).closure = true ∨ J.returns = false ∨ ∀ l ∈ visibleL ks, l.1 ≠ .eReturn := by
          cases k <;> first | (cases hf; done) | exact .inl rfl | skip
          cases hr : J.returns
          · exact .inr (.inl rfl)
          · exact .inr (.inr (hi3 rfl hr))
        have : ∀ (l l' : List Node) (ts : Nat → List Target) (rs : Nat → Role), (∀ n ∈ l, n ∈ ks) →
            weighL (isCtor J.en) l = 0 → hasNested l = false → (∀ i, ts i = []) → (∀ i, rs i = .plain) →
            AlikeL J.en l' (treatL J (w.enter k) ts rs l) → noAttrsL l' = noAttrsL l := by
          intro l
          induction l with
          | nil => intro l' ts rs _ _ _ _ _ h; rw [alikeL_nil h]
          | cons a l ihl =>
            intro l' ts rs hmem hc hn hts hrs h
            rw [weighL_cons] at hc
            rw [hasNested_cons, Bool.or_eq_false_iff] at hn
            simp only [treatL] at h
            obtain ⟨a', m, rfl, h1, h2⟩ := alikeL_inv h
            rw [hts, hrs] at h1
            rw [noAttrsL, noAttrsL, ihl m _ _ (fun n hn => hmem n (by simp [hn])) (by omega) hn.2
              (fun i => hts _) (fun i => hrs _) h2]
            have hv : ∀ x ∈ visible a, x ∈ visibleL ks := fun x hx => visibleL_mem (hmem a (by simp)) hx
            rw [frozen_alike hJ (by intro t ht; cases ht) (by simp only [ctors]; omega)
              (fun x hx => hi1 x (hv x hx)) hn.1 ?_ h1]
            rcases hret' with h | h | h
            · exact .inl h
            · exact .inr (.inl h)
            · exact .inr (.inr fun x hx => h x (hv x hx))
        exact this ks ks' _ _ (fun _ h => h) (by omega) hi2 hkt (hkr _) hks'
    · rintro rfl
      simp only [hidesCode, Bool.false_eq_true, if_false] at hks'
      match ks, hks', hct with
      | [], h, _ => rw [alikeL_nil h]
      | [a], h, _ =>
        simp only [treatL] at h
        obtain ⟨a', m, rfl, h1, h2⟩ := alikeL_inv h
        rw [alikeL_nil h2]; rfl
      | [a, b], h, hct =>
        simp only [treatL] at h
        obtain ⟨a', m, rfl, h1, h2⟩ := alikeL_inv h
        obtain ⟨b', m, rfl, h3, h4⟩ := alikeL_inv h2
        rw [alikeL_nil h4]
        rw [weighL_cons] at hct
        exact variantOf_kept hJ (by simp only [ctors]; omega) h1 _
      | a :: b :: c :: l, h, _ =>
        simp only [treatL] at h
        obtain ⟨a', m, rfl, h1, h2⟩ := alikeL_inv h
        obtain ⟨b', m, rfl, h3, h4⟩ := alikeL_inv h2
        obtain ⟨c', m, rfl, h5, h6⟩ := alikeL_inv h4
        rfl
    · rintro rfl
      simp only [hidesCode, Bool.false_eq_true, if_false] at hks'
      match ks, hks', hct with
      | [], h, _ => rw [alikeL_nil h]
      | [a], h, _ =>
        simp only [treatL] at h
        obtain ⟨a', m, rfl, h1, h2⟩ := alikeL_inv h
        rw [alikeL_nil h2]; rfl
      | [a, b], h, _ =>
        simp only [treatL] at h
        obtain ⟨a', m, rfl, h1, h2⟩ := alikeL_inv h
        obtain ⟨b', m, rfl, h3, h4⟩ := alikeL_inv h2
        rw [alikeL_nil h4]; rfl
      | a :: b :: c :: l, h, hct =>
        simp only [treatL] at h
        obtain ⟨a', m, rfl, h1, h2⟩ := alikeL_inv h
        obtain ⟨b', m, rfl, h3, h4⟩ := alikeL_inv h2
        obtain ⟨c', m, rfl, h5, h6⟩ := alikeL_inv h4
        simp only [weighL_cons] at hct
        simp only [List.getElem?_cons_succ, List.getElem?_cons_zero]
        exact isIf_kept hJ (by simp only [ctors]; omega) h5
    · rintro rfl
      exact asks_try htr
  -- wrapped values
  have hvalue : k = .eReturn ∨ (∃ l, k = .eBreak l) → r1 = .plain → ∀ ks',
      AlikeL J.en ks' (wrapHead J (treatL J (w.enter k) (fun i => kidTargets ts r1 k as i)
        (fun i => kidRole r1 k as ks.length i) ks)) → ∀ Γ' Γ u', Back J tr ts Γ' Γ → Γ'.here.next = none →
      value R (typedL R G ks') Γ' u' → value R (typedInL R G J.marker ks) Γ .free := by
    rintro hk rfl ks' hks' Γ' Γ u' hΓ hnx hv
    have hh : hidesCode k = false := by rcases hk with rfl | ⟨l, rfl⟩ <;> rfl
    have hf : isFrozen k = false := by rcases hk with rfl | ⟨l, rfl⟩ <;> rfl
    have hkt : ∀ i, kidTargets ts .plain k as i = Spec.through ts k as := by
      intro i; rcases hk with rfl | ⟨l, rfl⟩ <;> rfl
    have h0 := hfit hh hf
    cases ks with
    | nil => trivial
    | cons e es =>
      simp only [treatL, wrapHead] at hks' h0
      obtain ⟨a, m, rfl, h1, h2⟩ := alikeL_inv hks'
      obtain ⟨v, y, rfl, h3⟩ := ctor_inv h1
      have h0 := h0 _ (alikeL_cons.mpr ⟨h3, h2⟩)
      cases h0 with
      | cons h0 _ =>
        rw [hkr, hkt] at h0
        have hv : each (typed R G (construct [] J.en v y)) Γ' u' := hv
        have : ∃ u, typed R G (construct [] J.en v y) Γ' u := by
          unfold each at hv
          split at hv
          · exact ⟨_, hv.choose_spec⟩
          · exact ⟨_, hv⟩
        obtain ⟨u, hu⟩ := this
        rw [← hG] at hu
        obtain ⟨⟨t, ht⟩, -⟩ := typed_construct_last hnx hu
        exact ⟨t, h0.lax _ _ _ _ (hΓ.through k as) (.inl rfl) ht⟩
  -- branches and results
  have hres : r1 ≠ .plain → ∀ {as' ks'}, n' = .mk k as' ks' → binds k = false →
      (∀ Γ' Γ t, Back J tr ts Γ' Γ → Γ'.here.next = none → node R G k ks' (typedL R G ks') Γ' (.is t) →
      if r1 = .result ∨ k = .eIf then node R G k ks (typedInL R G J.marker ks) Γ .free
      else ∃ u, node R G k ks (typedInL R G J.marker ks) Γ (.is u)) → Returns R G J tr ts r n' (.mk k as ks) := by
    intro hne as' ks' hn' hb h Γ' Γ hΓ
    subst hn'
    have hif : isIf (some (.mk k as ks)) = true ↔ k = .eIf := by
      cases k <;> simp [isIf]
    have hcase : (r = .result ∧ r1 = .result) ∨ (r = .branch ∧ r1 = .branch) := by
      clear hfit hkeep hvalue h ih
      subst hr1
      revert hne
      unfold role
      rw [hn]
      cases hb : J.branches with
      | false => simp
      | true =>
        simp only [Bool.true_eq_false, if_false, Bool.false_and]
        split <;> (try split) <;> simp <;> simp_all
    have hcon : ∀ {d : Judge T Sc}, confine k d = fun Γ w => Γ.leaves Γ.here.scope ∧ d Γ.inside w := by
      intro d; funext Γ w; rw [confine, if_neg (by rw [hb]; simp)]
    rcases hcase with ⟨rfl, hr⟩ | ⟨rfl, hr⟩
    · intro t ht
      rw [typed, hcon] at ht
      have := h _ _ t hΓ.inside rfl ht.2
      rw [if_pos (.inl hr)] at this
      rw [hD, hcon]
      exact ⟨by rw [leaves_eq hΓ.here, hΓ.here]; exact ht.1, this⟩
    · intro t ht
      rw [typed, hcon] at ht
      have := h _ _ t hΓ.inside rfl ht.2
      have hlv : Γ.leaves Γ.here.scope := by rw [leaves_eq hΓ.here, hΓ.here]; exact ht.1
      rw [hD, hcon]
      by_cases hk : k = .eIf
      · rw [if_pos (.inr hk)] at this
        rw [if_pos (hif.mpr hk)]
        exact ⟨hlv, this⟩
      · rw [if_neg (by rw [hr]; simp [hk])] at this
        rw [if_neg (by rw [hif]; exact hk)]
        obtain ⟨u, hu⟩ := this
        exact ⟨u, hlv, hu⟩
  -- branches of `if`
  have hcond : k = .eIf → r1 ≠ .plain → ∀ as' ks', n' = .mk k as' ks' →
      AlikeL J.en ks' (treatL J (w.enter k) (fun i => kidTargets ts r1 k as i)
        (fun i => kidRole r1 k as ks.length i) ks) → Returns R G J tr ts r n' (.mk k as ks) := by
    rintro rfl hr as' ks' rfl hks'
    refine hres hr rfl rfl fun Γ' Γ t hΓ0 _ hty => ?_
    have hΓ := hΓ0.through .eIf as
    rw [if_pos (.inr rfl)]
    have h0 := hfit rfl rfl ks' hks'
    have hl : ks.length = 3 := by
      cases r1 with
      | plain => exact absurd rfl hr
      | result => simpa [wrappable] using hw
      | branch => simpa [wrappable] using hw
    match ks, hl with
    | [c, a, b], _ =>
      cases h0 with
      | @cons _ c' _ _ _ hc h0 => cases h0 with
        | @cons _ a' _ _ _ hx h0 => cases h0 with
          | @cons _ b' _ _ _ hb h0 =>
            cases h0
            simp only [kidRole, kidTargets] at hc hx hb
            rw [if_neg (by simp)] at hc
            rw [if_pos ⟨hr, by simp⟩] at hx
            rw [if_pos ⟨hr, by simp⟩] at hb
            simp only [node, typedL, typedInL, List.getElem?_cons_succ, List.getElem?_cons_zero, kid] at hty ⊢
            obtain ⟨s, h1, h2, h3⟩ := hty
            have hax : isIf (some a) = false := by
              have := (grammatical_mk hgr rfl).1
              revert this
              simp only [kidsOk]
              split <;> simp_all [isIf]
            refine ⟨s, hc.lax _ _ _ _ (hΓ.before s) (.inl rfl) h1, ?_, ?_⟩
            · have := hx _ _ (hΓ.within s) t h2
              rw [if_neg (by rw [hax]; simp)] at this
              exact this
            · have h4 := hb Γ' Γ hΓ t (by split at h3 <;> exact h3)
              split at h4
              · rw [if_pos (by assumption)]; exact h4
              · rw [if_neg (by assumption)]; exact h4
  -- statements
  have hstmts : ∀ ks' ts', (∀ i, kidTargets ts r1 k as i = ts') → hidesCode k = false → isFrozen k = false →
      AlikeL J.en ks' (treatL J (w.enter k) (fun i => kidTargets ts r1 k as i)
        (fun i => kidRole r1 k as ks.length i) ks) → (∀ i, i + 1 ≠ ks.length → kidRole r1 k as ks.length i = .plain) →
      ∀ Γ' Γ t u, Back J tr ts' Γ' Γ →
      ((u = .is t ∧ ∀ i, i + 1 = ks.length → kidRole r1 k as ks.length i = .plain) ∨
        (u = .free ∧ ∀ i, i + 1 = ks.length → kidRole r1 k as ks.length i = .result)) →
      stmts R (typedL R G ks') Γ' (.is t) → stmts R (typedInL R G J.marker ks) Γ u := by
    intro ks' ts' hkt hh hf hks' hpl Γ' Γ t u hΓ hu
    have hfk := hfit hh hf ks' hks'
    have hlen : ks'.length = ks.length := hfk.length
    refine stmts_back hΓ (P := fun i d' d => (i + 1 ≠ ks.length → Looser J tr ts' d' d) ∧
        (i + 1 = ks.length → ∀ Γ' Γ, Back J tr ts' Γ' Γ → d' Γ' (.is t) → d Γ u))
      (pairL_typedL_back hfk fun i a' a h => ⟨fun hi => ?_, fun hi Γ' Γ hΓ ht => ?_⟩)
      (fun i d d' hi h => h.1 ?_) (fun i d d' hi h => h.2 ?_) fun h0 => ?_
    · rw [hpl i hi, hkt] at h
      exact h.lax
    · rcases hu with ⟨rfl, h1⟩ | ⟨rfl, h1⟩
      · rw [h1 i hi, hkt] at h
        exact h.lax _ _ _ _ hΓ (.inl rfl) ht
      · rw [h1 i hi, hkt] at h
        exact h _ _ hΓ _ ht
    · rw [typedL_length] at hi; omega
    · rw [typedL_length] at hi; omega
    · rcases hu with ⟨rfl, -⟩ | ⟨rfl, -⟩
      · exact id
      · exact fun _ => trivial
  -- wrapped blocks
  have hblock : k = .block ∨ k = .eBlock none → r1 = .branch → ∀ as' ks', n' = .mk k as' ks' →
      AlikeL J.en ks' (wrapAll J (treatL J (w.enter k) (fun i => kidTargets ts r1 k as i)
        (fun i => kidRole r1 k as ks.length i) ks)) → Returns R G J tr ts r n' (.mk k as ks) := by
    rintro hk rfl as' ks' rfl hks'
    refine hres (by simp) rfl (by rcases hk with rfl | rfl <;> rfl) fun Γ' Γ t hΓ0 hnx hty => ?_
    have hΓ := hΓ0.through k as
    rw [if_neg (by rcases hk with rfl | rfl <;> simp)]
    simp only [wrapAll] at hks'
    obtain ⟨a, m, rfl, h1, h2⟩ := alikeL_inv hks'
    cases alikeL_nil h2
    obtain ⟨l1, rfl, h3⟩ := Alike.rigid h1 (by simp)
    obtain ⟨a, m, rfl, h4, h5⟩ := alikeL_inv h3
    cases alikeL_nil h5
    obtain ⟨v, y, rfl, h6⟩ := ctor_inv h4
    obtain ⟨l2, rfl, h7⟩ := Alike.rigid h6 (by simp)
    have hkr : ∀ i, kidRole .branch k as ks.length i = .plain := by
      intro i; rcases hk with rfl | rfl <;> simp [kidRole]
    have h8 : typed R G (construct [] J.en v (.mk (.eBlock none) [] l2)) Γ' (.is t) := by
      rcases hk with rfl | rfl <;>
      · simp only [node, typedL, stmts] at hty
        rw [typed_node fun _ => hnx] at hty
        simpa only [node, typedL, kid, List.getElem?_cons_zero] using hty
    rw [← hG] at h8
    obtain ⟨⟨u, h9⟩, -⟩ := typed_construct_last hnx h8
    rw [typed_node fun _ => hnx] at h9
    refine ⟨u, ?_⟩
    have := hstmts l2 (Spec.through ts k as) (by intro i; rcases hk with rfl | rfl <;> rfl)
      (by rcases hk with rfl | rfl <;> rfl) (by rcases hk with rfl | rfl <;> rfl) h7 (fun i _ => hkr i)
      Γ' Γ u (.is u) hΓ (.inl ⟨rfl, fun i _ => hkr i⟩) h9
    rcases hk with rfl | rfl <;> exact this
  unfold assemble at ha
  dsimp only at ha
  split at ha
  · -- `return`
    cases r1 <;> try (cases hw; done)
    split at ha
    · rename_i hr
      simp only [Bool.and_eq_true, Bool.not_eq_true'] at hr
      obtain ⟨ks', rfl, hks'⟩ := hcls ha
      refine returns_plain fun Γ' Γ u' u hΓ _ hty => ?_
      rw [hD]
      rw [typed] at hty
      unfold confine at hty ⊢
      simp only [binds, Bool.false_eq_true, if_false, node] at hty ⊢
      refine ⟨by rw [leaves_eq hΓ.here, hΓ.here]; exact hty.1, ?_⟩
      replace hty := hty.2
      replace hΓ := hΓ.inside
      rw [hΓ.free hr.1.1.1]
      simp only [hidesCode, Bool.false_eq_true, if_false] at hks'
      exact hvalue (.inl rfl) rfl ks' hks' _ _ _ hΓ rfl hty
    · obtain ⟨ks', rfl, hks'⟩ := hcls ha
      exact hkeep _ _ rfl rfl hks'
  · -- `break`
    rename_i l
    cases r1 <;> try (cases hw; done)
    split at ha
    · rename_i hr
      simp only [Bool.and_eq_true, Bool.not_eq_true'] at hr
      obtain ⟨ks', rfl, hks'⟩ := hcls ha
      refine returns_plain fun Γ' Γ u' u hΓ _ hty => ?_
      rw [hD]
      rw [typed] at hty
      unfold confine at hty ⊢
      simp only [binds, Bool.false_eq_true, if_false, node] at hty ⊢
      refine ⟨by rw [leaves_eq hΓ.here, hΓ.here]; exact hty.1, ?_⟩
      replace hty := hty.2
      replace hΓ := hΓ.inside
      obtain ⟨v', hv1, hv2⟩ := hty
      obtain ⟨v, h1, -, h2⟩ := hΓ.targets l v' hv1
      obtain rfl := h2 (through_hits hr.1)
      refine ⟨.free, h1, ?_⟩
      simp only [hidesCode, Bool.false_eq_true, if_false] at hks'
      exact hvalue (.inr ⟨l, rfl⟩) rfl ks' hks' _ _ _ hΓ rfl hv2
    · obtain ⟨ks', rfl, hks'⟩ := hcls ha
      exact hkeep _ _ rfl rfl hks'
  · -- `?`
    have ha : Alike J.en n' (.mk .eTry (if carries .eTry then strip as else as)
        (if hidesCode .eTry then ks else treatL J (w.enter .eTry) (fun i => kidTargets ts r1 .eTry as i)
        (fun i => kidRole r1 .eTry as ks.length i) ks)) := by
      split at ha
      · rename_i e he
        rw [hJ] at ha
        exact ha
      · exact ha
    cases r1 <;> try (cases hw; done)
    obtain ⟨ks', rfl, hks'⟩ := hcls ha
    exact hkeep _ _ rfl rfl hks'
  · -- macros
    rename_i p t
    have ha : Alike J.en n' (.mk (.eMacro p t) (if carries (.eMacro p t) then strip as else as) ks) := by
      split at ha
      · rw [if_neg] at ha
        · exact ha
        · rintro rfl
          rw [callsMacro_iff.mpr ⟨_, rfl⟩] at hmk
          cases hmk
      · exact ha
    cases r1 <;> try (cases hw; done)
    obtain ⟨ks', rfl, hks'⟩ := hcls ha
    exact hkeep _ _ rfl rfl hks'
  · -- arms
    rename_i p
    obtain ⟨ks', rfl, hks'⟩ := hcls ha
    cases r1 <;> try (cases hw; done)
    · exact hkeep _ _ rfl rfl hks'
    · simp only [hidesCode, Bool.false_eq_true, if_false, if_true] at hks'
      refine hres (by simp) rfl rfl fun Γ' Γ t hΓ0 hnx hty => ?_
      have hΓ := hΓ0.through (.arm p) as
      rw [if_neg (by simp)]
      have h0 := hfit rfl rfl
      have hkr : ∀ n i, kidRole .branch (.arm p) as n i = .plain := by
        intro n i; simp only [kidRole, hnest rfl]; simp
      obtain ⟨s, hp, hty⟩ := hty
      rw [← hΓ.here] at hp
      simp only [hkr, kidTargets] at h0
      match ks, hks', h0 with
      | [], hks', _ =>
        cases alikeL_nil hks'
        exact hty.elim
      | [b], hks', h0 =>
        simp only [treatL, wrapLast] at hks'
        obtain ⟨c, m, rfl, h1, h2⟩ := alikeL_inv hks'
        cases alikeL_nil h2
        obtain ⟨v, y, rfl, h3⟩ := ctor_inv h1
        have h0 := h0 [y] (by simp only [treatL, hkr, kidTargets] at h3 ⊢; exact .cons h3 rfl)
        cases h0 with
        | cons h0 _ =>
          simp only [typedL] at hty
          rw [← hG] at hty
          obtain ⟨⟨u, h4⟩, -⟩ := typed_construct_last (Γ := Γ'.within s) hnx hty
          exact ⟨u, s, hp, h0.lax _ _ _ _ (hΓ.within s) (.inl rfl) h4⟩
      | [g, b], hks', h0 =>
        simp only [treatL, wrapLast] at hks'
        obtain ⟨g', m, rfl, hg, h2⟩ := alikeL_inv hks'
        obtain ⟨c, m, rfl, h1, h2⟩ := alikeL_inv h2
        cases alikeL_nil h2
        obtain ⟨v, y, rfl, h3⟩ := ctor_inv h1
        have h0 := h0 [g', y] (by simp only [treatL, hkr, kidTargets] at hg h3 ⊢; exact .cons hg (.cons h3 rfl))
        cases h0 with
        | cons h0 h4 => cases h4 with
          | cons h4 _ =>
            simp only [typedL] at hty
            rw [← hG] at hty
            obtain ⟨s', hty1, hty⟩ := hty
            obtain ⟨⟨u, h5⟩, -⟩ := typed_construct_last (Γ := Γ'.within s') hnx hty
            exact ⟨u, s, hp, s', h0.lax _ _ _ _ ((hΓ.within s).before s') (.inl rfl) hty1,
              h4.lax _ _ _ _ (hΓ.within s') (.inl rfl) h5⟩
      | a :: b :: c :: l, hks', _ =>
        simp only [treatL, wrapLast] at hks'
        obtain ⟨a', m, rfl, h1, h2⟩ := alikeL_inv hks'
        obtain ⟨b', m, rfl, h3, h4⟩ := alikeL_inv h2
        cases l with
        | nil =>
          simp only [treatL, wrapLast] at h4
          obtain ⟨c', m, rfl, h5, h6⟩ := alikeL_inv h4
          exact hty.elim
        | cons d l =>
          simp only [treatL, wrapLast] at h4
          obtain ⟨c', m, rfl, h5, h6⟩ := alikeL_inv h4
          exact hty.elim
  · -- blocks
    obtain ⟨ks', rfl, hks'⟩ := hcls ha
    cases r1 <;> try (cases hw; done)
    · exact hkeep _ _ rfl rfl hks'
    · simp only [hidesCode, Bool.false_eq_true, if_false, if_true] at hks'
      exact hblock (.inl rfl) rfl _ _ rfl hks'
  · rename_i l
    obtain ⟨ks', rfl, hks'⟩ := hcls ha
    cases r1 with
    | plain => exact hkeep _ _ rfl rfl hks'
    | branch =>
      cases l with
      | some l => cases hw
      | none =>
        simp only [hidesCode, Bool.false_eq_true, if_false, if_true] at hks'
        exact hblock (.inr rfl) rfl _ _ rfl hks'
    | result =>
      cases l with
      | some l => cases hw
      | none =>
        simp only [hidesCode, Bool.false_eq_true, if_false, reduceCtorEq] at hks'
        refine hres (by simp) rfl rfl fun Γ' Γ t hΓ _ hty => ?_
        rw [if_pos (.inl rfl)]
        refine hstmts ks' (Spec.through ts (.eBlock none) as) (by intro i; rfl) rfl rfl hks' (fun i hi => ?_)
          _ _ _ _ (hΓ.through _ _) (.inr ⟨rfl, fun i hi => ?_⟩) hty
        · simp [kidRole, hi]
        · simp [kidRole, hi]
  · obtain ⟨ks', rfl, hks'⟩ := hcls ha
    cases r1 with
    | plain => exact hkeep _ _ rfl rfl hks'
    | branch =>
      cases k <;> try (cases hw; done)
      all_goals try (simp_all; done)
      simp only [hidesCode, Bool.false_eq_true, if_false] at hks'
      exact hcond rfl (by simp) _ _ rfl hks'
    | result =>
      cases k <;> try (cases hw; done)
      all_goals simp only [hidesCode, Bool.false_eq_true, if_false] at hks'
      case eIf => exact hcond rfl (by simp) _ _ rfl hks'
      case eBlock l h => exact absurd rfl (h _)
      case eUnsafe =>
        refine hres (by simp) rfl rfl fun Γ' Γ t hΓ _ hty => ?_
        rw [if_pos (.inl rfl)]
        refine hstmts ks' (Spec.through ts .eUnsafe as) (by intro i; rfl) rfl rfl hks' (fun i hi => ?_)
          _ _ _ _ (hΓ.through _ _) (.inr ⟨rfl, fun i hi => ?_⟩) hty
        · simp [kidRole, hi]
        · simp [kidRole, hi]
      case sExpr semi _ _ _ _ _ _ _ =>
        refine hres (by simp) rfl rfl fun Γ' Γ t hΓ _ hty => ?_
        rw [if_pos (.inl rfl)]
        cases semi with
        | true => cases hw
        | false =>
          have h0 := hfit rfl rfl ks' hks'
          simp only [node, kid] at hty ⊢
          cases h0 with
          | nil => exact hty.elim
          | cons h0 _ =>
            simp only [kidRole, kidTargets, if_true] at h0
            exact h0 _ _ (hΓ.through _ _) _ hty
      case eParen =>
        refine hres (by simp) rfl rfl fun Γ' Γ t hΓ _ hty => ?_
        rw [if_pos (.inl rfl)]
        have h0 := hfit rfl rfl ks' hks'
        simp only [node, kid] at hty ⊢
        cases h0 with
        | nil => exact hty.elim
        | cons h0 _ =>
          simp only [kidRole, kidTargets, if_true] at h0
          exact h0 _ _ (hΓ.through _ _) _ hty
      case eMatch =>
        refine hres (by simp) rfl rfl fun Γ' Γ t hΓ0 hnx hty => ?_
        have hΓ := hΓ0.through .eMatch as
        rw [if_pos (.inl rfl)]
        have h0 := hfit rfl rfl ks' hks'
        obtain ⟨s, h1, h2⟩ := hty
        refine ⟨s, ?_, fun d hd => ?_⟩
        · cases h0 with
          | nil => exact h1.elim
          | cons h0 _ =>
            simp only [kidRole, kidTargets] at h0
            rw [if_neg (by simp)] at h0
            exact h0.lax _ _ _ _ hΓ (.inl rfl) h1
        · cases h0 with
          | nil => cases hd
          | cons _ h0 =>
            have hg := (grammatical_mk hgr rfl).1
            simp only [kidsOk, Bool.and_eq_true, List.all_eq_true] at hg
            have h3 := pairL_typedL_back (R := R) (G := G) (m := J.marker) (Q := fun _ d' d => ∀ Γ' Γ t,
              Back J tr (Spec.through ts .eMatch as) Γ' Γ → d' Γ' (.is t) → ∃ u, d Γ (.is u)) h0.withMem
              fun i a' a h => by
                obtain ⟨h, hm⟩ := h
                simp only [kidRole, kidTargets] at h
                rw [if_pos ⟨trivial, by omega⟩] at h
                have ha : isIf (some a) = false := by
                  have := hg.2 a hm
                  obtain ⟨ak, aas, aks⟩ := a
                  cases ak <;> first | rfl | cases this
                intro Γ' Γ t hΓ ht
                have := h Γ' Γ hΓ t ht
                rwa [if_neg (by rw [ha]; simp)] at this
            simp only [typedL, typedInL, List.tail_cons] at hd h2
            obtain ⟨d0, hd0, h4⟩ := h3.mem hd
            exact h4 _ _ _ (hΓ.on s) (h2 d0 hd0)
      case eLoop l _ _ _ _ _ _ _ =>
        refine hres (by simp) rfl rfl fun Γ' Γ t hΓ _ hty => ?_
        rw [if_pos (.inl rfl)]
        have h0 := hfit rfl rfl ks' hks'
        simp only [node, kid] at hty ⊢
        cases h0 with
        | nil => exact hty.elim
        | cons h0 _ =>
          simp only [kidRole, kidTargets] at h0
          exact h0.lax _ _ _ _ ((hΓ.through _ _).enter l true (.inr (.inr ⟨t, rfl, rfl⟩)) (fun _ => rfl)) (.inl rfl) hty

end

end AutoEnums
