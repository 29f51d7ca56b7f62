import Verif.Lemmas.TypingSim

/-! # Lemmas: the types of the payloads -/

namespace AutoEnums

open Spec

section

variable {T Sc : Type} {R : Rules T Sc}

open TypeRules

/-! ## Which types of the kids the type of a node relies on -/

/-- The judgement holds, if it is asked for. -/
def Meets (d : Judge T Sc) : Option (Around T Sc × Want T) → Prop
  | none => True
  | some (Γ, w) => d Γ w

inductive MeetsL : List (Judge T Sc) → List (Option (Around T Sc × Want T)) → Prop where
  | nil : MeetsL [] []
  | cons {d : Judge T Sc} {ds : List (Judge T Sc)} {q : Option (Around T Sc × Want T)} {qs} : Meets d q →
      MeetsL ds qs → MeetsL (d :: ds) (q :: qs)

/-- What has no value has every type. -/
def ClosedL (ds : List (Judge T Sc)) : Prop := ∀ d ∈ ds, ∀ Γ w, d Γ .never → d Γ w

/-- The judgement about the kids relies on one type of each of them. -/
def Relies (P : List (Judge T Sc) → Prop) (ds : List (Judge T Sc)) : Prop :=
  P ds → ∃ qs, MeetsL ds qs ∧ ∀ ds', MeetsL ds' qs → ClosedL ds' → P ds'

theorem meets_nones : ∀ ds : List (Judge T Sc), ∃ qs, MeetsL ds qs ∧ ∀ ds', MeetsL ds' qs → ds'.length = ds.length
  | [] => ⟨[], .nil, fun _ h => by cases h; rfl⟩
  | _ :: ds => by
    obtain ⟨qs, h1, h2⟩ := meets_nones ds
    exact ⟨none :: qs, .cons trivial h1, fun _ h => by cases h with | cons _ h => simp [h2 _ h]⟩

theorem relies_const {p : Prop} (ds : List (Judge T Sc)) : Relies (fun _ => p) ds := fun h => by
  obtain ⟨qs, h1, _⟩ := meets_nones ds
  exact ⟨qs, h1, fun _ _ _ => h⟩

theorem relies_length {p : Nat → Prop} (ds : List (Judge T Sc)) : Relies (fun ds => p ds.length) ds := fun h => by
  obtain ⟨qs, h1, h2⟩ := meets_nones ds
  exact ⟨qs, h1, fun ds' h' _ => by show p ds'.length; rw [h2 _ h']; exact h⟩

theorem relies_imp {P Q : List (Judge T Sc) → Prop} {ds : List (Judge T Sc)} (h : Relies P ds) (h1 : Q ds → P ds)
    (h2 : ∀ ds', P ds' → Q ds') : Relies Q ds := fun hq => by
  obtain ⟨qs, h3, h4⟩ := h (h1 hq)
  exact ⟨qs, h3, fun ds' h5 h6 => h2 _ (h4 ds' h5 h6)⟩

theorem relies_or {P Q : List (Judge T Sc) → Prop} {ds : List (Judge T Sc)} (hP : Relies P ds) (hQ : Relies Q ds) :
    Relies (fun ds => P ds ∨ Q ds) ds := by
  rintro (h | h)
  · obtain ⟨qs, h3, h4⟩ := hP h
    exact ⟨qs, h3, fun ds' h5 h6 => .inl (h4 ds' h5 h6)⟩
  · obtain ⟨qs, h3, h4⟩ := hQ h
    exact ⟨qs, h3, fun ds' h5 h6 => .inr (h4 ds' h5 h6)⟩

theorem relies_exists {A : Type} {P : A → List (Judge T Sc) → Prop} {ds : List (Judge T Sc)} (hP : ∀ a, Relies (P a) ds) :
    Relies (fun ds => ∃ a, P a ds) ds := by
  rintro ⟨a, h⟩
  obtain ⟨qs, h3, h4⟩ := hP a h
  exact ⟨qs, h3, fun ds' h5 h6 => ⟨a, h4 ds' h5 h6⟩⟩

theorem relies_and {p : Prop} {P : List (Judge T Sc) → Prop} {ds : List (Judge T Sc)} (hP : Relies P ds) :
    Relies (fun ds => p ∧ P ds) ds := by
  rintro ⟨hp, h⟩
  obtain ⟨qs, h3, h4⟩ := hP h
  exact ⟨qs, h3, fun ds' h5 h6 => ⟨hp, h4 ds' h5 h6⟩⟩

theorem relies_and' {p : Prop} {P : List (Judge T Sc) → Prop} {ds : List (Judge T Sc)} (hP : Relies P ds) :
    Relies (fun ds => P ds ∧ p) ds :=
  relies_imp (relies_and (p := p) hP) And.symm fun _ => And.symm

theorem relies_kid (Γ : Around T Sc) (w : Want T) (ds : List (Judge T Sc)) : Relies (fun ds => kid ds 0 Γ w) ds := by
  intro h
  cases ds with
  | nil => exact h.elim
  | cons d ds =>
    obtain ⟨qs, h1, -⟩ := meets_nones ds
    refine ⟨some (Γ, w) :: qs, .cons h h1, fun ds' h' _ => ?_⟩
    cases h' with
    | cons h' _ => exact h'

theorem relies_kids (Γ Γ' : Around T Sc) (w w' : Want T) (ds : List (Judge T Sc)) :
    Relies (fun ds => kid ds 0 Γ w ∧ kid ds 1 Γ' w') ds := by
  rintro ⟨h, h0⟩
  match ds with
  | [] => exact h.elim
  | [d] => exact h0.elim
  | d :: d' :: ds =>
    obtain ⟨qs, h1, -⟩ := meets_nones ds
    refine ⟨some (Γ, w) :: some (Γ', w') :: qs, .cons h (.cons h0 h1), fun ds' h' _ => ?_⟩
    cases h' with
    | cons h1 h' => cases h' with
      | cons h2 _ => exact ⟨h1, h2⟩

theorem each_asks {d : Judge T Sc} {Γ : Around T Sc} {w : Want T} (h : each d Γ w) :
    ∃ w', d Γ w' ∧ ∀ d' : Judge T Sc, d' Γ w' → each d' Γ w := by
  cases w with
  | is t => exact ⟨.is t, h, fun _ h => h⟩
  | free =>
    obtain ⟨t, h⟩ := h
    exact ⟨.is t, h, fun _ h => ⟨t, h⟩⟩
  | never => exact ⟨.never, h, fun _ h => h⟩

theorem relies_each (Γ : Around T Sc) (w : Want T) (ds : List (Judge T Sc)) : Relies (fun ds => each (kid ds 0) Γ w) ds := by
  intro h
  obtain ⟨w', h1, h2⟩ := each_asks h
  obtain ⟨qs, h3, h4⟩ := relies_kid Γ w' ds h1
  exact ⟨qs, h3, fun ds' h5 h6 => h2 _ (h4 ds' h5 h6)⟩

theorem relies_stmts (w : Want T) : ∀ (ds : List (Judge T Sc)) (Γ : Around T Sc),
    Relies (fun ds => stmts R ds Γ w) ds
  | [], _, h => ⟨[], .nil, fun ds' h' _ => by cases h'; exact h⟩
  | [d], Γ, h => ⟨[some (Γ, w)], .cons h .nil, fun ds' h' _ => by
      cases h' with
      | cons h' h'' => cases h''; exact h'⟩
  | d :: d' :: ds, Γ, h => by
    obtain ⟨s, h0, h⟩ := h
    obtain ⟨qs, h1, h2⟩ := relies_stmts w (d' :: ds) (Γ.within s) h
    refine ⟨some (Γ.before s, .is R.unit) :: qs, .cons h0 h1, fun ds' h' hc => ?_⟩
    cases h' with
    | cons h3 h4 =>
      have h5 := h2 _ h4 fun d hd => hc d (List.mem_cons_of_mem _ hd)
      cases h4 with
      | nil => cases h1
      | cons h6 h7 => exact ⟨s, h3, h5⟩

theorem relies_kinds (Γ : Around T Sc) : ∀ (ds : List (Judge T Sc)) (us : List T), Relies (fun ds => kinds ds Γ us) ds
  | [], [], _ => ⟨[], .nil, fun ds' h' _ => by cases h'; trivial⟩
  | d :: ds, u :: us, h => by
    obtain ⟨qs, h1, h2⟩ := relies_kinds Γ ds us h.2
    refine ⟨some (Γ, .is u) :: qs, .cons h.1 h1, fun ds' h' hc => ?_⟩
    cases h' with
    | cons h3 h4 => exact ⟨h3, h2 _ h4 fun d hd => hc d (List.mem_cons_of_mem _ hd)⟩
  | [], _ :: _, h => h.elim
  | _ :: _, [], h => h.elim

theorem relies_other (k : Kind) (Γ : Around T Sc) (w : Want T) (ds : List (Judge T Sc)) :
    Relies (fun ds => other R k ds Γ w) ds :=
  relies_exists fun us => relies_and' (relies_kinds Γ ds us)

theorem relies_all {Q : Judge T Sc → Prop} (hQ : ∀ d, Q d → ∃ Γ w, d Γ w ∧ ∀ d' : Judge T Sc, d' Γ w → Q d') :
    ∀ ds : List (Judge T Sc), Relies (fun ds => ∀ d ∈ ds, Q d) ds
  | [], _ => ⟨[], .nil, fun ds' h' _ => by cases h'; simp⟩
  | d :: ds, h => by
    obtain ⟨qs, h1, h2⟩ := relies_all hQ ds fun d hd => h d (List.mem_cons_of_mem _ hd)
    obtain ⟨Γ, w, h3, h4⟩ := hQ d (h d List.mem_cons_self)
    refine ⟨some (Γ, w) :: qs, .cons h3 h1, fun ds' h' hc => ?_⟩
    cases h' with
    | cons h5 h6 =>
      intro d hd
      rcases List.mem_cons.mp hd with rfl | hd
      · exact h4 _ h5
      · exact h2 _ h6 (fun d hd => hc d (List.mem_cons_of_mem _ hd)) d hd

theorem relies_value (Γ : Around T Sc) (u : Want T) (ds : List (Judge T Sc)) : Relies (fun ds => value R ds Γ u) ds := by
  cases ds with
  | nil => exact fun h => ⟨[], .nil, fun ds' h' _ => by cases h'; exact h⟩
  | cons d ds =>
    intro h
    obtain ⟨w', h1, h2⟩ := each_asks (show each d Γ u from h)
    obtain ⟨qs, h3, -⟩ := meets_nones ds
    refine ⟨some (Γ, w') :: qs, .cons h1 h3, fun ds' h' _ => ?_⟩
    cases h' with
    | cons h' _ => exact h2 _ h'

/-- The type of a node relies on one type of each kid. -/
theorem relies_node {G : Generated T} {k : Kind} {ks : List Node}
    (hk : k = .eCall → constructed G.name ks = none) (Γ : Around T Sc) (w : Want T) (ds : List (Judge T Sc)) :
    node R G k ks ds Γ w → ∃ qs, MeetsL ds qs ∧ ∀ G' : Generated T, G'.name = G.name → ∀ ds', MeetsL ds' qs →
      ClosedL ds' → node R G' k ks ds' Γ w := by
  suffices h : Relies (fun ds => node R G k ks ds Γ w) ds ∧ ∀ G' : Generated T, G'.name = G.name →
      ∀ ds, node R G k ks ds Γ w = node R G' k ks ds Γ w by
    intro h0
    obtain ⟨qs, h1, h2⟩ := h.1 h0
    exact ⟨qs, h1, fun G' hG ds' h3 h4 => (h.2 G' hG ds') ▸ h2 ds' h3 h4⟩
  refine ⟨?_, ?_⟩
  · by_cases hoth : isSimple k = true
    · have : ∀ ds, node R G k ks ds Γ w = other R k ds Γ w := by
        intro ds; cases k <;> first | rfl | cases hoth
      exact relies_imp (relies_other k Γ w ds) (fun h => by rw [← this]; exact h) fun _ h => by rw [this]; exact h
    cases k <;> try (exact absurd rfl hoth)
    case block => exact relies_stmts _ _ _
    case eUnsafe => exact relies_stmts _ _ _
    case eConst => exact relies_stmts _ _ _
    case eBlock l => cases l <;> exact relies_stmts _ _ _
    case sExpr semi =>
      cases semi with
      | false => exact relies_kid _ _ _
      | true => exact relies_or (relies_kid _ _ _) (relies_and' (relies_exists fun _ => relies_kid _ _ _))
    case eParen => exact relies_kid _ _ _
    case eGroup => exact relies_kid _ _ _
    case sLocal p =>
      refine relies_exists fun t => relies_exists fun s => relies_and (relies_and ?_)
      cases ds with
      | nil => exact fun h => ⟨[], .nil, fun ds' h' _ => by cases h'; exact h⟩
      | cons d ds =>
        rintro ⟨h1, h3, h4⟩
        obtain ⟨qs, h5, h6⟩ := relies_all (Q := fun e => e Γ.inside .never)
          (fun d h => ⟨Γ.inside, .never, h, fun _ => id⟩) ds h3
        rcases h4 with h4 | h4
        · refine ⟨some (Γ.inside, .never) :: qs, .cons h4 h5, fun ds' h' hc => ?_⟩
          cases h' with
          | cons h7 h8 =>
            exact ⟨hc _ List.mem_cons_self _ _ h7, h6 _ h8 fun d hd => hc d (List.mem_cons_of_mem _ hd),
              .inl h7⟩
        · refine ⟨some (Γ.inside, .is t) :: qs, .cons h1 h5, fun ds' h' hc => ?_⟩
          cases h' with
          | cons h7 h8 =>
            exact ⟨h7, h6 _ h8 fun d hd => hc d (List.mem_cons_of_mem _ hd), .inr h4⟩
    case sItem => exact relies_const _
    case eLet p =>
      exact relies_exists fun t => relies_exists fun s => relies_and' (relies_kid _ _ _)
    case eBinary op =>
      simp only [node]
      split
      · exact relies_exists fun s => relies_imp (relies_and' (p := w.accepts R.bool) (relies_kids _ _ _ _ ds))
          (fun h => ⟨⟨h.1, h.2.1⟩, h.2.2⟩) fun _ h => ⟨h.1.1, h.1.2, h.2⟩
      · exact relies_other _ _ _ _
    case eMatch =>
      refine relies_exists fun t => ?_
      rintro ⟨h1, h2⟩
      cases ds with
      | nil => exact h1.elim
      | cons d ds =>
        obtain ⟨qs, h3, h4⟩ := relies_all (Q := fun d => each d (Γ.on t) w)
          (fun d h => by obtain ⟨w', h⟩ := each_asks h; exact ⟨_, w', h⟩) ds h2
        refine ⟨some (Γ, .is t) :: qs, .cons h1 h3, fun ds' h' hc => ?_⟩
        cases h' with
        | cons h5 h6 => exact ⟨h5, h4 _ h6 fun d hd => hc d (List.mem_cons_of_mem _ hd)⟩
    case arm p =>
      refine relies_exists fun s => relies_and ?_
      match ds with
      | [] => exact fun h => h.elim
      | [d] =>
        refine fun h => ⟨[some (Γ.within s, w)], .cons h .nil, fun ds' h' _ => ?_⟩
        cases h' with
        | cons h' h'' => cases h''; exact h'
      | [g, d] =>
        rintro ⟨s', h1, h2⟩
        refine ⟨[some ((Γ.within s).before s', .is R.bool), some (Γ.within s', w)], .cons h1 (.cons h2 .nil),
          fun ds' h' _ => ?_⟩
        cases h' with
        | cons h1 h' => cases h' with
          | cons h2 h' => cases h'; exact ⟨s', h1, h2⟩
      | _ :: _ :: _ :: _ => exact fun h => h.elim
    case eIf =>
      refine relies_exists fun s => ?_
      match ds with
      | [] => exact fun h => h.1.elim
      | [_] => exact fun h => h.2.elim
      | [c, a] =>
        refine fun h => ⟨[some (Γ.before s, .is R.bool), some (Γ.within s, .is R.unit)],
          .cons h.1 (.cons h.2.1 .nil), fun ds' h' _ => ?_⟩
        cases h' with
        | cons h1 h' => cases h' with
          | cons h2 h' => cases h'; exact ⟨h1, h2, h.2.2⟩
      | [c, a, b] =>
        intro h
        obtain ⟨w1, h1, h2⟩ := each_asks h.2.1
        have h3 : ∃ w', b Γ w' ∧ ∀ d' : Judge T Sc, d' Γ w' → if isIf ks[2]? then d' Γ w else each d' Γ w := by
          have := h.2.2
          by_cases hi : isIf ks[2]? = true
          · simp only [hi, if_true] at this ⊢
            exact ⟨w, this, fun _ => id⟩
          · simp only [hi] at this ⊢
            exact each_asks this
        obtain ⟨w2, h4, h5⟩ := h3
        refine ⟨[some (Γ.before s, .is R.bool), some (Γ.within s, w1), some (Γ, w2)], .cons h.1 (.cons h1 (.cons h4 .nil)),
          fun ds' h' _ => ?_⟩
        cases h' with
        | cons h6 h' => cases h' with
          | cons h7 h' => cases h' with
            | cons h8 h' => cases h'; exact ⟨h6, h2 _ h7, h5 _ h8⟩
      | _ :: _ :: _ :: _ :: _ => exact fun h => h.2.elim
    case eLoop => exact relies_kid _ _ _
    case eWhile l =>
      exact relies_exists fun s => relies_imp (relies_and' (p := w.accepts R.unit) (relies_kids _ _ _ _ ds))
        (fun h => ⟨⟨h.1, h.2.1⟩, h.2.2⟩) fun _ h => ⟨h.1.1, h.1.2, h.2⟩
    case eForLoop l p =>
      exact relies_exists fun t => relies_exists fun s =>
        relies_imp (relies_and' (p := R.iter Γ.here.scope p t s ∧ w.accepts R.unit)
          (relies_kids Γ ((Γ.enter l true (.is R.unit)).within s) (.is t) (.is R.unit) ds))
        (fun ⟨h1, h2, h3, h4⟩ => ⟨⟨h1, h3⟩, h2, h4⟩) fun _ ⟨⟨h1, h3⟩, h2, h4⟩ => ⟨h1, h2, h3, h4⟩
    case eBreak l => exact relies_exists fun u => relies_and (relies_value _ _ _)
    case eContinue => exact relies_const _
    case eReturn => exact relies_value _ _ _
    case eTry => exact relies_exists fun t => relies_exists fun q => relies_and' (relies_kid _ _ _)
    case eTryBlock => exact relies_exists fun t => relies_exists fun u => relies_and' (relies_stmts _ _ _)
    case eMacro => exact relies_const _
    case sMacro => exact relies_const _
    case eClosure => exact relies_const _
    case eAsync => exact relies_const _
    case eVerbatim => exact relies_const _
    case eTuple =>
      cases ds with
      | nil => exact fun h => ⟨[], .nil, fun ds' h' _ => by cases h'; exact h⟩
      | cons d ds =>
        intro h
        obtain ⟨qs, h1, h2⟩ := relies_other (R := R) .eTuple Γ w (d :: ds) h
        refine ⟨qs, h1, fun ds' h3 h4 => ?_⟩
        have h5 := h2 ds' h3 h4
        cases h3 with
        | nil => cases h1
        | cons => exact h5
    case ePath q p =>
      simp only [node]
      split
      · exact relies_const _
      · exact relies_other _ _ _ _
    case eCall =>
      simp only [node, hk rfl]
      exact relies_other _ _ _ _
    case eMethodCall => exact relies_other _ _ _ _
  · intro G' hG ds
    cases k <;> try rfl
    case eBlock l => cases l <;> rfl
    case sExpr semi => cases semi <;> rfl
    case eCall => simp only [node, hG, hk rfl]
    case ePath => simp only [node, hG]

/-! ## Payloads -/

theorem constructed_uses {en x : Ident} {ks : List Node} (h : constructed en ks = some x) :
    ∃ p as' ks' e, ks = [.mk (.ePath false p) as' ks', e] ∧ p = variantPath en x := by
  unfold constructed at h
  split at h
  · rename_i c e
    obtain ⟨k, as', ks'⟩ := c
    simp only [Node.kind] at h
    unfold variantOf at h
    split at h
    · split at h
      · rename_i he
        simp only [Option.some.injEq] at h
        subst he
        subst h
        exact ⟨_, _, _, _, rfl, rfl⟩
      · cases h
    · cases h
  · cases h

/-- Only the payloads of the constructors that are used matter. -/
theorem typed_congr {en : Ident} {E : T} {P P' : Ident → T → Prop} : ∀ n : Node,
    (∀ x, uses en x n ≠ 0 → P x = P' x) → typed R ⟨en, E, P⟩ n = typed R ⟨en, E, P'⟩ n := by
  refine Node.ind (P := fun n => (∀ x, uses en x n ≠ 0 → P x = P' x) →
    typed R ⟨en, E, P⟩ n = typed R ⟨en, E, P'⟩ n) ?_
  intro k as ks ih h
  have hl : typedL R ⟨en, E, P⟩ ks = typedL R ⟨en, E, P'⟩ ks := by
    have : ∀ l : List Node, (∀ n ∈ l, n ∈ ks) → (∀ x, weighL (isUse en x) l ≠ 0 → P x = P' x) →
        typedL R ⟨en, E, P⟩ l = typedL R ⟨en, E, P'⟩ l := by
      intro l
      induction l with
      | nil => intro _ _; rfl
      | cons a l ihl =>
        intro hm hx
        simp only [weighL_cons] at hx
        rw [typedL, typedL, ih a (hm a List.mem_cons_self) fun x h => hx x ?_,
          ihl (fun n hn => hm n (List.mem_cons_of_mem _ hn)) fun x h => hx x (by omega)]
        simp only [uses] at h
        omega
    refine this ks (fun _ h => h) fun x hx => h x ?_
    simp only [uses, weigh_mk]
    omega
  rw [typed, typed, hl]
  congr 1
  funext Γ w
  cases k <;> try rfl
  case eBlock l => cases l <;> rfl
  case sExpr semi => cases semi <;> rfl
  case eCall =>
    simp only [node]
    cases hc : constructed en ks with
    | none => rfl
    | some x =>
      obtain ⟨p, as', ks', e, rfl, rfl⟩ := constructed_uses hc
      dsimp only
      rw [h x]
      simp only [uses, weigh_mk, weighL_cons, isUse, if_true]
      omega

/-- The same for code with markers. -/
theorem typedAs_congr {en : Ident} {E : T} {P P' : Ident → T → Prop} {m : String} {b : Bool} : ∀ n : Node,
    (∀ x, uses en x n ≠ 0 → P x = P' x) → typedAs b R ⟨en, E, P⟩ m n = typedAs b R ⟨en, E, P'⟩ m n := by
  refine Node.ind (P := fun n => (∀ x, uses en x n ≠ 0 → P x = P' x) →
    typedAs b R ⟨en, E, P⟩ m n = typedAs b R ⟨en, E, P'⟩ m n) ?_
  intro k as ks ih h
  cases hm : callsMacro m k && ks.length == 1 with
  | true =>
    rw [Bool.and_eq_true, beq_iff_eq] at hm
    match ks, hm.2 with
    | [e], _ =>
      funext Γ w
      rw [typedAs_marker (by rw [hm.1]; rfl), typedAs_marker (by rw [hm.1]; rfl)]
      simp only [typedL]
      rw [typed_congr (P' := P') e fun x hx => h x ?_]
      simp only [uses, weigh_mk, weighL_cons] at hx ⊢
      omega
  | false =>
    have hl : typedAsL b R ⟨en, E, P⟩ m ks = typedAsL b R ⟨en, E, P'⟩ m ks := by
      have : ∀ l : List Node, (∀ n ∈ l, n ∈ ks) → (∀ x, weighL (isUse en x) l ≠ 0 → P x = P' x) →
          typedAsL b R ⟨en, E, P⟩ m l = typedAsL b R ⟨en, E, P'⟩ m l := by
        intro l
        induction l with
        | nil => intro _ _; rfl
        | cons a l ihl =>
          intro hm hx
          simp only [weighL_cons] at hx
          rw [typedAsL, typedAsL, ih a (hm a List.mem_cons_self) fun x h => hx x ?_,
            ihl (fun n hn => hm n (List.mem_cons_of_mem _ hn)) fun x h => hx x (by omega)]
          simp only [uses] at h
          omega
      refine this ks (fun _ h => h) fun x hx => h x ?_
      simp only [uses, weigh_mk]
      omega
    rw [typedAs_node hm, typedAs_node hm, hl]
    congr 3
    funext Γ w
    cases k <;> try rfl
    case eBlock l => cases l <;> rfl
    case sExpr semi => cases semi <;> rfl
    case eCall =>
      simp only [node]
      cases hc : constructed en ks with
      | none => rfl
      | some x =>
        obtain ⟨p, as', ks', e, rfl, rfl⟩ := constructed_uses hc
        dsimp only
        rw [h x]
        simp only [uses, weigh_mk, weighL_cons, isUse, if_true]
        omega

/-- If no constructor is used twice, then their payloads can be given types. -/
theorem typed_payload {en : Ident} {E : T} : ∀ n : Node, (∀ x, uses en x n ≤ 1) → ∀ Γ w,
    typed R ⟨en, E, fun _ _ => True⟩ n Γ w → ∃ σ : Ident → T, typed R ⟨en, E, fun x t => t = σ x⟩ n Γ w := by
  refine Node.ind (P := fun n => (∀ x, uses en x n ≤ 1) → ∀ Γ w, typed R ⟨en, E, fun _ _ => True⟩ n Γ w →
    ∃ σ : Ident → T, typed R ⟨en, E, fun x t => t = σ x⟩ n Γ w) ?_
  intro k as ks ih hu Γ w hty
  suffices hn : ∀ Γ w, node R ⟨en, E, fun _ _ => True⟩ k ks (typedL R ⟨en, E, fun _ _ => True⟩ ks) Γ w →
      ∃ σ : Ident → T, node R ⟨en, E, fun x t => t = σ x⟩ k ks (typedL R ⟨en, E, fun x t => t = σ x⟩ ks) Γ w by
    rw [typed] at hty
    unfold confine at hty
    split at hty
    · rename_i hb
      obtain ⟨σ, h⟩ := hn Γ w hty
      refine ⟨σ, ?_⟩
      rw [typed, confine, if_pos hb]
      exact h
    · rename_i hb
      obtain ⟨σ, h⟩ := hn _ w hty.2
      refine ⟨σ, ?_⟩
      rw [typed, confine, if_neg hb]
      exact ⟨hty.1, h⟩
  clear hty Γ w
  intro Γ w hty
  by_cases hk : k = .eCall ∧ constructed en ks ≠ none
  · obtain ⟨rfl, hk⟩ := hk
    simp only [node] at hty
    cases hc : constructed en ks with
    | none => exact absurd hc hk
    | some x =>
      rw [hc] at hty
      obtain ⟨t, h1, -, h2⟩ := hty
      obtain ⟨p, as', ks', e, rfl, rfl⟩ := constructed_uses hc
      simp only [uses, weigh_mk, weighL_cons, weighL_nil] at hu
      obtain ⟨σ, h3⟩ := ih e (by simp) (fun x => by have := hu x; simp only [uses]; omega) Γ (.is t) h1
      refine ⟨fun y => if y = x then t else σ y, ?_⟩
      simp only [node, hc]
      refine ⟨t, ?_, by simp, h2⟩
      show typed R _ e Γ (.is t)
      rw [typed_congr (P' := fun x t => t = σ x) e]
      · exact h3
      · intro y hy
        have : y ≠ x := by
          rintro rfl
          have := hu y
          simp only [isUse, if_true, uses] at this hy
          omega
        simp [this]
  · obtain ⟨qs, h1, h2⟩ := relies_node (fun h => Classical.byContradiction fun h' => hk ⟨h, h'⟩) Γ w _ hty
    have : ∀ (l : List Node) qs, (∀ n ∈ l, n ∈ ks) → (∀ x, weighL (isUse en x) l ≤ 1) →
        MeetsL (typedL R ⟨en, E, fun _ _ => True⟩ l) qs →
        ∃ σ : Ident → T, MeetsL (typedL R ⟨en, E, fun x t => t = σ x⟩ l) qs := by
      intro l
      induction l with
      | nil => intro qs _ _ h; exact ⟨fun _ => R.unit, h⟩
      | cons a l ihl =>
        intro qs hm hx h
        simp only [weighL_cons] at hx
        rw [typedL] at h
        cases h with
        | @cons _ _ q qs h3 h4 =>
          obtain ⟨σ1, h5⟩ : ∃ σ : Ident → T, Meets (typed R ⟨en, E, fun x t => t = σ x⟩ a) q := by
            cases q with
            | none => exact ⟨fun _ => R.unit, trivial⟩
            | some q =>
              exact ih a (hm a List.mem_cons_self) (fun x => by have := hx x; simp only [uses]; omega) _ _ h3
          obtain ⟨σ2, h6⟩ := ihl _ (fun n hn => hm n (List.mem_cons_of_mem _ hn))
            (fun x => by have := hx x; omega) h4
          refine ⟨fun x => if uses en x a ≠ 0 then σ1 x else σ2 x, ?_⟩
          rw [typedL]
          refine .cons ?_ ?_
          · rw [typed_congr (P' := fun x t => t = σ1 x) a]
            · exact h5
            · intro x hx; simp [hx]
          · have hl : ∀ l' : List Node, (∀ x, uses en x a ≠ 0 → weighL (isUse en x) l' = 0) →
                typedL R ⟨en, E, fun x t => t = if uses en x a ≠ 0 then σ1 x else σ2 x⟩ l' =
                  typedL R ⟨en, E, fun x t => t = σ2 x⟩ l' := by
              intro l'
              induction l' with
              | nil => intro _; rfl
              | cons b l' ih' =>
                intro h
                simp only [weighL_cons] at h
                rw [typedL, typedL, ih' fun x hx => by have := h x hx; omega]
                rw [typed_congr (P' := fun x t => t = σ2 x) b]
                intro x hb
                have : ¬ uses en x a ≠ 0 := by
                  intro ha
                  have := h x ha
                  simp only [uses] at hb
                  omega
                simp only [if_neg this]
            rw [hl]
            · exact h6
            · intro x ha
              have := hx x
              simp only [uses] at ha
              omega
    obtain ⟨σ, h3⟩ := this ks qs (fun _ h => h)
      (fun x => by have := hu x; simp only [uses, weigh_mk] at this; omega) h1
    refine ⟨σ, ?_⟩
    refine h2 ⟨en, E, fun x t => t = σ x⟩ rfl _ h3 fun d hd => ?_
    obtain ⟨n, _, rfl⟩ := mem_typedL hd
    exact fun Γ w h => typed_never h w

end

end AutoEnums
