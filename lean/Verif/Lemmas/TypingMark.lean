import Verif.Spec.TypingMark
import Verif.Lemmas.TypingDiverge

/-! # Lemmas: the types of markers and `#[nested]` -/

namespace AutoEnums

open Spec

section

variable {T Sc : Type} {R : Rules T Sc} {G : Generated T} {m : String} {b : Bool}

open TypeRules

theorem typedAs_marker {k : Kind} {as : List Attr} {ks : List Node} (h : (callsMacro m k && ks.length == 1) = true)
    (Γ : Around T Sc) (w : Want T) : typedAs b R G m (.mk k as ks) Γ w =
      (Γ.leaves Γ.here.scope ∧ (∃ t, kid (typedL R G ks) 0 Γ.inside (.is t)) ∧ w.accepts G.type) := by
  have hk : binds k = false := by
    rw [Bool.and_eq_true] at h
    cases k <;> first | rfl | cases h.1
  rw [typedAs, if_pos h, confine, hk]
  rfl

theorem typedIn_marker {k : Kind} {as : List Attr} {ks : List Node} (h : (callsMacro m k && ks.length == 1) = true)
    (Γ : Around T Sc) (w : Want T) : typedIn R G m (.mk k as ks) Γ w =
      (Γ.leaves Γ.here.scope ∧ (∃ t, kid (typedL R G ks) 0 Γ.inside (.is t)) ∧ w.accepts G.type) :=
  typedAs_marker h Γ w

theorem typedAs_node {k : Kind} {as : List Attr} {ks : List Node} (h : (callsMacro m k && ks.length == 1) = false) :
    typedAs b R G m (.mk k as ks) = onNested G.type (nestedExpr k as)
      (confine k (onNever b k as (node R G k ks (onNestedKids G.type k as (typedAsL b R G m ks))))) := by
  rw [typedAs, if_neg (by rw [h]; simp)]

theorem onNever_eq {k : Kind} {as : List Attr} (h : ¬(marked "never" as = true ∧ (isExpression k = true ∨ ∃ p, k = .arm p)))
    (d : Judge T Sc) : onNever b k as d = d := by
  funext Γ w
  unfold onNever
  split
  · rename_i hb
    rw [Bool.and_eq_true] at hb
    split
    · exact absurd ⟨hb.2, .inr ⟨_, rfl⟩⟩ h
    · rw [if_neg fun hk => h ⟨hb.2, .inl hk⟩]
  · rfl

theorem onNever_plain {k : Kind} {as : List Attr} (h : b = true → carries k = true → marked "never" as = false)
    (d : Judge T Sc) : onNever b k as d = d := by
  funext Γ w
  unfold onNever
  split
  · rename_i hb
    rw [Bool.and_eq_true] at hb
    split
    · rw [h hb.1 rfl] at hb; cases hb.2
    · split
      · rename_i hk
        rw [h hb.1 (by cases k <;> first | exact hk | rfl)] at hb; cases hb.2
      · rfl
  · rfl

theorem typedIn_node {k : Kind} {as : List Attr} {ks : List Node} (h : (callsMacro m k && ks.length == 1) = false) :
    typedIn R G m (.mk k as ks) = onNested G.type (nestedExpr k as)
      (confine k (node R G k ks (onNestedKids G.type k as (typedInL R G m ks)))) := by
  unfold typedIn
  rw [typedAs_node h, onNever_plain (by simp)]

theorem onNested_false {E : T} (d : Judge T Sc) : onNested E false d = d := by
  funext Γ w
  simp [onNested]

theorem onNestedKids_plain {E : T} {k : Kind} {as : List Attr} (h : carries k = true → marked "nested" as = false)
    (ds : List (Judge T Sc)) : onNestedKids E k as ds = ds := by
  unfold onNestedKids
  split
  · rw [h rfl, onNested_false]
  · rw [h rfl, onNested_false]
  · rw [h rfl, onNested_false]
  · rfl

theorem mem_typedAsL : ∀ {l : List Node} {d : Judge T Sc}, d ∈ typedAsL b R G m l → ∃ n ∈ l, d = typedAs b R G m n
  | [], _, h => by cases h
  | n :: l, d, h => by
    rw [typedAsL, List.mem_cons] at h
    rcases h with rfl | h
    · exact ⟨n, by simp, rfl⟩
    · obtain ⟨n', h1, h2⟩ := mem_typedAsL h
      exact ⟨n', by simp [h1], h2⟩

theorem mem_onNestedKids {E : T} {k : Kind} {as : List Attr} {ds : List (Judge T Sc)} {d : Judge T Sc}
    (h : d ∈ onNestedKids E k as ds) : ∃ d0 ∈ ds, d = d0 ∨ ∃ b, d = onNested E b d0 := by
  unfold onNestedKids at h
  split at h
  · simp only [List.mem_singleton] at h
    exact ⟨_, List.mem_singleton.mpr rfl, .inr ⟨_, h⟩⟩
  · simp only [List.mem_cons, List.not_mem_nil, or_false] at h
    rcases h with h | h
    · exact ⟨_, by simp, .inl h⟩
    · exact ⟨_, by simp, .inr ⟨_, h⟩⟩
  · simp only [List.mem_cons] at h
    rcases h with h | h
    · exact ⟨_, by simp, .inr ⟨_, h⟩⟩
    · exact ⟨_, by simp [h], .inl rfl⟩
  · exact ⟨_, h, .inl rfl⟩

/-! ## Diverging code has every type -/

theorem mono_onNested {S : Kind → Prop} {E : T} {b : Bool} {d : Judge T Sc} (h : Mono S d) :
    Mono S (onNested E b d) := by
  intro Γ Γ' w w' hΓ hw hd
  unfold onNested at hd ⊢
  split
  · rw [if_pos (by assumption)] at hd
    obtain ⟨rfl, hd⟩ := hd
    rcases hw with hw | rfl
    · cases hw
    · exact ⟨rfl, h _ _ _ _ hΓ (.inr rfl) hd⟩
  · rw [if_neg (by assumption)] at hd
    exact h _ _ _ _ hΓ hw hd

theorem mono_weaken {S S' : Kind → Prop} (h : ∀ k, S k → S' k) {d : Judge T Sc} (hd : Mono S d) : Mono S' d :=
  fun _ _ _ _ hΓ => hd _ _ _ _
    ⟨fun l u hS => hΓ.targets l u (h _ hS), fun hS => hΓ.ret (h _ hS), hΓ.answer, hΓ.here⟩

theorem find_shut : ∀ {ts : List (Option String × Bool × Want T)} {l : Option String} {v : Want T},
    findTarget (ts.map fun t => (t.1, t.2.1, t.2.2.shut)) l = some v → ∃ u, findTarget ts l = some u ∧ v = u.shut
  | [], _, _, h => by cases h
  | (x, i, u) :: ts, none, v, h => by
    simp only [List.map_cons, findTarget] at h ⊢
    split at h
    · rw [if_pos (by assumption)]
      cases h
      exact ⟨u, rfl, rfl⟩
    · rw [if_neg (by assumption)]
      exact find_shut h
  | (x, i, u) :: ts, some y, v, h => by
    simp only [List.map_cons, findTarget] at h ⊢
    split at h
    · rw [if_pos (by assumption)]
      cases h
      exact ⟨u, rfl, rfl⟩
    · rw [if_neg (by assumption)]
      exact find_shut h

theorem shut_find : ∀ {ts : List (Option String × Bool × Want T)} {l : Option String} {u : Want T},
    findTarget ts l = some u → findTarget (ts.map fun t => (t.1, t.2.1, t.2.2.shut)) l = some u.shut
  | [], _, _, h => by cases h
  | (x, i, u) :: ts, none, v, h => by
    simp only [List.map_cons, findTarget] at h ⊢
    split at h
    · rw [if_pos (by assumption)]
      cases h
      rfl
    · rw [if_neg (by assumption)]
      exact shut_find h
  | (x, i, u) :: ts, some y, v, h => by
    simp only [List.map_cons, findTarget] at h ⊢
    split at h
    · rw [if_pos (by assumption)]
      cases h
      rfl
    · rw [if_neg (by assumption)]
      exact shut_find h

theorem shut_le {u v : Want T} (h : Want.le u v) : Want.le u.shut v.shut := by
  rcases h with rfl | rfl
  · exact .inl rfl
  · exact .inr rfl

theorem answer_shut (Γ : Around T Sc) (k : Kind) : (Γ.shut k).answer = Γ.answer := by
  obtain ⟨ts, ret, tries, here⟩ := Γ
  cases tries <;> cases ret <;> cases k <;> rfl

theorem Around.le_shut {Γ Γ' : Around T Sc} (h : Around.le (fun _ => True) Γ Γ') (k : Kind) :
    Around.le (fun _ => True) (Γ.shut k) (Γ'.shut k) := by
  refine ⟨fun l v _ hv => ?_, fun _ => ?_, fun q hq => ?_, h.here⟩
  · obtain ⟨u, hu, rfl⟩ := find_shut hv
    obtain ⟨u', h1, h2⟩ := h.targets l u trivial hu
    exact ⟨u'.shut, shut_find h1, shut_le h2⟩
  · have := h.ret trivial
    cases k <;> first | exact this | exact shut_le this
  · rw [answer_shut] at hq ⊢
    exact h.answer q hq

theorem mono_onNever {k : Kind} {as : List Attr} {d : Judge T Sc} (h : Mono (fun _ => True) d) :
    Mono (fun _ => True) (onNever b k as d) := by
  intro Γ Γ' w w' hΓ hw hd
  unfold onNever at hd ⊢
  split
  · rw [if_pos (by assumption)] at hd
    split at hd
    · exact h _ _ _ _ hΓ (.inr rfl) hd
    · split
      · rw [if_pos (by assumption)] at hd
        exact h _ _ _ _ (Around.le_shut hΓ _) (.inr rfl) hd
      · rw [if_neg (by assumption)] at hd
        exact h _ _ _ _ hΓ hw hd
  · rw [if_neg (by assumption)] at hd
    exact h _ _ _ _ hΓ hw hd

theorem typedAs_mono : ∀ n : Node, Mono (fun _ => True) (typedAs b R G m n) := by
  refine Node.ind (P := fun n => Mono (fun _ => True) (typedAs b R G m n)) ?_
  intro k as ks ih
  cases hm : callsMacro m k && ks.length == 1 with
  | true =>
    intro Γ Γ' w w' hΓ hw hd
    rw [typedAs_marker hm] at hd ⊢
    obtain ⟨hl, ⟨t, ht⟩, ha⟩ := hd
    refine ⟨by rw [leaves_eq hΓ.here, hΓ.here]; exact hl,
      ⟨t, mono_kid (S := fun _ => True) (fun d hd => ?_) 0 _ _ _ _ hΓ.inside (.inr rfl) ht⟩, accepts_le hw ha⟩
    obtain ⟨n, -, rfl⟩ := mem_typedL hd
    exact mono_weaken (fun _ _ => trivial) (typed_mono n)
  | false =>
    rw [typedAs_node hm]
    refine mono_onNested (mono_confine (mono_onNever (mono_node (fun d hd => ?_) trivial)))
    obtain ⟨d0, h0, h1⟩ := mem_onNestedKids hd
    obtain ⟨n, hn, rfl⟩ := mem_typedAsL h0
    rcases h1 with rfl | ⟨_, rfl⟩
    · exact ih n hn
    · exact mono_onNested (ih n hn)

theorem typedAs_never {n : Node} {Γ : Around T Sc} (h : typedAs b R G m n Γ .never) (w : Want T) :
    typedAs b R G m n Γ w := typedAs_mono n _ _ _ _ (Around.le_refl _ Γ) (.inl rfl) h

/-! ## Code without markers and `#[nested]` -/

theorem typedAs_plain : ∀ n : Node, (∀ x ∈ visible n, callsMacro m x.1 = false) → hasNested [n] = false →
    (b = true → ∀ x ∈ visible n, carries x.1 = true → marked "never" x.2 = false) →
    typedAs b R G m n = typed R G n := by
  refine Node.ind (P := fun n => (∀ x ∈ visible n, callsMacro m x.1 = false) → hasNested [n] = false →
    (b = true → ∀ x ∈ visible n, carries x.1 = true → marked "never" x.2 = false) →
    typedAs b R G m n = typed R G n) ?_
  intro k as ks ih hv hn hnev
  have h1 : callsMacro m k = false := hv (k, as) (by rw [visible]; exact List.mem_cons_self)
  have h2 : carries k = true → marked "nested" as = false := by
    intro hc
    unfold hasNested at hn
    rw [List.any_eq_false] at hn
    have := hn (k, as) (by rw [visibleL, visible]; simp)
    simpa [hc] using this
  have h3 : nestedExpr k as = false := by
    unfold nestedExpr
    cases hx : isExpression k
    · rfl
    · rw [h2 (by cases k <;> first | exact hx | rfl)]; rfl
  rw [typedAs_node (by rw [h1]; rfl), h3, onNested_false, onNestedKids_plain h2, typed,
    onNever_plain fun hb => hnev hb (k, as) (by rw [visible]; exact List.mem_cons_self)]
  by_cases hh : hidesCode k = true
  · congr 1
    funext Γ w
    cases k <;> first | (cases hh; done) | rfl
  · have hl : ∀ l : List Node, (∀ n ∈ l, n ∈ ks) → typedAsL b R G m l = typedL R G l := by
      intro l
      induction l with
      | nil => intro _; rfl
      | cons a l ihl =>
        intro hm
        rw [typedAsL, typedL, ihl fun n hn => hm n (by simp [hn])]
        congr 1
        have ha := hm a (by simp)
        refine ih a ha (fun x hx => hv x ?_) ?_ fun hb x hx => hnev hb x ?_
        · rw [visible, if_neg hh]
          exact List.mem_cons_of_mem _ (visibleL_mem ha hx)
        · unfold hasNested at hn ⊢
          rw [List.any_eq_false] at hn ⊢
          intro x hx
          refine hn x ?_
          rw [visibleL, visibleL, List.append_nil] at hx ⊢
          rw [visible, if_neg hh]
          exact List.mem_cons_of_mem _ (visibleL_mem ha hx)
        · rw [visible, if_neg hh]
          exact List.mem_cons_of_mem _ (visibleL_mem ha hx)
    rw [hl ks fun _ h => h]

theorem typedIn_plain (n : Node) (h1 : ∀ x ∈ visible n, callsMacro m x.1 = false) (h2 : hasNested [n] = false) :
    typedIn R G m n = typed R G n := typedAs_plain n h1 h2 (by simp)

/-- Without `#[never]`, both rules are the same. -/
theorem typedAs_calm : ∀ n : Node, (∀ x ∈ visible n, carries x.1 = true → marked "never" x.2 = false) →
    typedAs b R G m n = typedIn R G m n := by
  refine Node.ind (P := fun n => (∀ x ∈ visible n, carries x.1 = true → marked "never" x.2 = false) →
    typedAs b R G m n = typedIn R G m n) ?_
  intro k as ks ih hnev
  cases hm : callsMacro m k && ks.length == 1 with
  | true =>
    funext Γ w
    rw [typedAs_marker hm, typedIn_marker hm]
  | false =>
    rw [typedIn_node hm, typedAs_node hm,
      onNever_plain fun _ => hnev (k, as) (by rw [visible]; exact List.mem_cons_self)]
    by_cases hh : hidesCode k = true
    · congr 2
      funext Γ w
      cases k <;> first | (cases hh; done) | rfl
    · have hl : ∀ l : List Node, (∀ n ∈ l, n ∈ ks) → typedAsL b R G m l = typedInL R G m l := by
        intro l
        induction l with
        | nil => intro _; rfl
        | cons a l ihl =>
          intro hm
          unfold typedInL
          rw [typedAsL, typedAsL, ihl fun n hn => hm n (by simp [hn])]
          congr 1
          have ha := hm a (by simp)
          refine ih a ha fun x hx => hnev x ?_
          rw [visible, if_neg hh]
          exact List.mem_cons_of_mem _ (visibleL_mem ha hx)
      rw [hl ks fun _ h => h]

theorem tame_visible : ∀ n : Node, tame [m] n = true → ∀ x ∈ visible n, callsMacro m x.1 = false := by
  refine Node.ind (P := fun n => tame [m] n = true → ∀ x ∈ visible n, callsMacro m x.1 = false) ?_
  intro k as ks ih ht x hx
  rw [tame, Bool.and_eq_true, Bool.and_eq_true] at ht
  have h0 : callsMacro m k = false := by
    cases k <;> try rfl
    simpa [tameKind, callsMacro] using ht.1.2
  rw [visible] at hx
  rcases List.mem_cons.mp hx with rfl | hx
  · exact h0
  · split at hx
    · cases hx
    · rename_i hh
      have hks : tameL [m] ks = true := by simpa [hh] using ht.2
      have : ∀ l : List Node, (∀ n ∈ l, n ∈ ks) → x ∈ visibleL l → callsMacro m x.1 = false := by
        intro l
        induction l with
        | nil => intro _ h; cases h
        | cons a l ihl =>
          intro hm h
          rw [visibleL, List.mem_append] at h
          rcases h with h | h
          · exact ih a (hm a (by simp)) (tameL_mem hks a (hm a (by simp))) x h
          · exact ihl (fun n hn => hm n (by simp [hn])) h
      exact this ks (fun _ h => h) hx

theorem tame_nevers : ∀ n : Node, tame [m] n = true → ∀ x ∈ visible n, marked "never" x.2 = false := by
  refine Node.ind (P := fun n => tame [m] n = true → ∀ x ∈ visible n, marked "never" x.2 = false) ?_
  intro k as ks ih ht x hx
  rw [tame, Bool.and_eq_true, Bool.and_eq_true] at ht
  rw [visible] at hx
  rcases List.mem_cons.mp hx with rfl | hx
  · exact never_of_tame ht.1.1
  · split at hx
    · cases hx
    · rename_i hh
      have hks : tameL [m] ks = true := by simpa [hh] using ht.2
      have : ∀ l : List Node, (∀ n ∈ l, n ∈ ks) → x ∈ visibleL l → marked "never" x.2 = false := by
        intro l
        induction l with
        | nil => intro _ h; cases h
        | cons a l ihl =>
          intro hm h
          rw [visibleL, List.mem_append] at h
          rcases h with h | h
          · exact ih a (hm a (by simp)) (tameL_mem hks a (hm a (by simp))) x h
          · exact ihl (fun n hn => hm n (by simp [hn])) h
      exact this ks (fun _ h => h) hx

/-! ## Code all of whose values are wrapped has the type of the enum -/

theorem typedAsL_getLast {l : List Node} {n : Node} (h : l.getLast? = some n) :
    (typedAsL b R G m l).getLast? = some (typedAs b R G m n) := by
  induction l with
  | nil => cases h
  | cons a l ih =>
    cases l with
    | nil => simp only [List.getLast?_singleton, Option.some.injEq] at h; subst h; rfl
    | cons b l =>
      rw [List.getLast?_cons_cons] at h
      have := ih h
      rw [typedAsL] at this ⊢
      rw [typedAsL, List.getLast?_cons_cons]
      exact this

theorem stmts_want {w w' : Want T} : ∀ {Γ : Around T Sc} {ds : List (Judge T Sc)} {d : Judge T Sc},
    ds.getLast? = some d → (∀ Γ, d Γ w → d Γ w') → stmts R ds Γ w → stmts R ds Γ w'
  | _, [], _, h, _, _ => by cases h
  | _, [d], _, h, hd, hs => by
    simp only [List.getLast?_singleton, Option.some.injEq] at h
    subst h
    exact hd _ hs
  | _, d :: d' :: ds, _, h, hd, hs => by
    rw [List.getLast?_cons_cons] at h
    obtain ⟨s, h1, h2⟩ := hs
    exact ⟨s, h1, stmts_want h hd h2⟩

theorem delivers_last : ∀ {l : List Node}, deliversLast m l = true → ∃ n, l.getLast? = some n ∧ n ∈ l ∧ delivers m n = true
  | [], h => by cases h
  | [n], h => ⟨n, rfl, by simp, by simpa [deliversLast] using h⟩
  | a :: b :: l, h => by
    obtain ⟨n, h1, h2, h3⟩ := delivers_last (l := b :: l) (by simpa [deliversLast] using h)
    exact ⟨n, by rw [List.getLast?_cons_cons]; exact h1, by simp [List.mem_cons.mp h2], h3⟩

theorem delivers_all : ∀ {l : List Node}, deliversAll m l = true → ∀ n ∈ l, delivers m n = true
  | [], _, _, hn => by cases hn
  | a :: l, h, n, hn => by
    rw [deliversAll, Bool.and_eq_true] at h
    rcases List.mem_cons.mp hn with rfl | hn
    · exact h.1
    · exact delivers_all h.2 n hn

theorem each_want {d : Judge T Sc} {Γ : Around T Sc} {t : T} (h : ∀ w, d Γ w → d Γ (.is t)) {w : Want T}
    (he : each d Γ w) : each d Γ (.is t) := by
  show d Γ (.is t)
  unfold each at he
  split at he
  · obtain ⟨u, hu⟩ := he; exact h _ hu
  · exact h _ he

/-- What is annotated `#[never]` has every type. -/
theorem pledges_typed {k : Kind} {as : List Attr} {ks : List Node} (h1 : pledges k as = true)
    (h2 : nestedExpr k as = false) (h3 : callsMacro m k = false) {Γ : Around T Sc} {w : Want T}
    (h : typedAs true R G m (.mk k as ks) Γ w) (w' : Want T) : typedAs true R G m (.mk k as ks) Γ w' := by
  rw [typedAs_node (by rw [h3]; rfl), h2, onNested_false] at h ⊢
  revert h
  refine confine_imp fun Γ h => ?_
  unfold pledges at h1
  rw [Bool.and_eq_true] at h1
  unfold onNever at h ⊢
  rw [Bool.true_and, if_pos h1.2] at h ⊢
  split at h
  · cases h1.1
  · rw [if_pos h1.1] at h ⊢
    exact h

theorem delivers_typed (hR : Infers R) : ∀ n : Node, delivers m n = true → ∀ (Γ : Around T Sc) w, typedAs true R G m n Γ w →
    typedAs true R G m n Γ (.is G.type) := by
  refine Node.ind (P := fun n => delivers m n = true → ∀ (Γ : Around T Sc) w, typedAs true R G m n Γ w →
    typedAs true R G m n Γ (.is G.type)) ?_
  intro k as ks ih hd Γ w hty
  cases hm : callsMacro m k && ks.length == 1 with
  | true =>
    rw [typedAs_marker hm] at hty ⊢
    exact ⟨hty.1, hty.2.1, rfl⟩
  | false =>
    by_cases hab : (abrupt m (.mk k as ks) && calm m (.mk k as ks) && !hasNested [.mk k as ks]) = true
    · simp only [Bool.and_eq_true, Bool.not_eq_true'] at hab
      have htm : tame [m] (.mk k as ks) = true := by
        have := hab.1.1
        unfold abrupt at this
        rw [Bool.and_eq_true] at this
        exact this.1
      rw [typedAs_plain _ (tame_visible _ htm) hab.2 fun _ x hx _ => tame_nevers _ htm x hx] at hty ⊢
      exact abrupt_typed hR hab.1.1 hab.1.2 hty _
    · rw [typedAs_node hm] at hty ⊢
      cases hn : nestedExpr k as with
      | true =>
        rw [hn] at hty
        unfold onNested at hty ⊢
        rw [if_pos rfl] at hty ⊢
        exact ⟨rfl, hty.2⟩
      | false =>
        rw [hn] at hty
        rw [onNested_false] at hty ⊢
        revert hty
        refine confine_imp fun Γ hty => ?_
        by_cases hv : marked "never" as = true ∧ (isExpression k = true ∨ ∃ p, k = .arm p)
        · obtain ⟨hv1, hv2⟩ := hv
          unfold onNever at hty ⊢
          rw [Bool.true_and, if_pos hv1] at hty ⊢
          rcases hv2 with h | ⟨p, rfl⟩
          · split at hty
            · exact hty
            · rw [if_pos h] at hty ⊢
              exact hty
          · exact hty
        have hpl : carries k = true → (∀ p, k ≠ .sLocal p) → marked "never" as = false := by
          intro h1 h2
          cases hx : marked "never" as with
          | false => rfl
          | true =>
            exfalso
            apply hv
            refine ⟨hx, ?_⟩
            cases k <;> first | exact .inl rfl | exact .inr ⟨_, rfl⟩ | exact absurd rfl (h2 _) | cases h1
        rw [onNever_eq hv] at hty ⊢
        have hne : pledges k as = false := by
          unfold pledges
          cases hx : isExpression k with
          | false => rfl
          | true =>
            rw [hpl (by cases k <;> first | exact hx | rfl) (by rintro p rfl; cases hx)]
            rfl
        have hblock : (∀ ds : List (Judge T Sc), onNestedKids G.type k as ds = ds) → deliversLast m ks = true →
            stmts R (onNestedKids G.type k as (typedAsL true R G m ks)) Γ w →
            stmts R (onNestedKids G.type k as (typedAsL true R G m ks)) Γ (.is G.type) := by
          intro h0 h1 h2
          rw [h0] at h2 ⊢
          obtain ⟨n, h3, h4, h5⟩ := delivers_last h1
          exact stmts_want (typedAsL_getLast h3) (fun Γ => ih n h4 h5 Γ w) h2
        have hab' := Bool.eq_false_iff.mpr hab
        rw [delivers.eq_def] at hd
        dsimp only at hd
        rw [hn, hne, hm, hab', Bool.false_or, Bool.false_or, Bool.false_or, Bool.false_or] at hd
        split at hd
        · exact hblock (fun _ => rfl) hd hty
        · exact hblock (fun _ => rfl) hd hty
        · exact hblock (fun _ => rfl) hd hty
        · rename_i p
          obtain ⟨s, h1, h2⟩ := hty
          refine ⟨s, h1, ?_⟩
          have hb : ∀ b ∈ ks, ks.getLast? = some b → ∀ Γ, onNested G.type (marked "nested" as) (typedAs true R G m b) Γ w →
              onNested G.type (marked "nested" as) (typedAs true R G m b) Γ (.is G.type) := by
            intro b hb hl Γ hb2
            unfold onNested at hb2 ⊢
            cases hma : marked "nested" as with
            | true =>
              simp only [hma, if_true] at hb2 ⊢
              exact ⟨trivial, hb2.2⟩
            | false =>
              simp only [hma, hpl rfl (by simp), Bool.false_or, Bool.false_eq_true, if_false] at hd hb2 ⊢
              obtain ⟨n, h3, h4, h5⟩ := delivers_last hd
              rw [hl] at h3
              cases h3
              exact ih b hb h5 Γ w hb2
          match ks, h2, hb with
          | [], h2, _ => exact h2.elim
          | [b], h2, hb => exact hb b (by simp) rfl _ h2
          | [g, b], h2, hb =>
            obtain ⟨s', h2, h3⟩ := h2
            exact ⟨s', h2, hb b (by simp) rfl _ h3⟩
          | _ :: _ :: _ :: _, h2, _ => exact h2.elim
        · rename_i k2 as2 ks2
          simp only [Bool.and_eq_true, Bool.not_eq_true'] at hd
          have h1 : ∀ Γ w, typedAs true R G m (.mk k2 as2 ks2) Γ w → typedAs true R G m (.mk k2 as2 ks2) Γ .never :=
            fun Γ w h => pledges_typed hd.1.1 hd.1.2 hd.2 h _
          rcases hty with hty | ⟨⟨t, hty⟩, -⟩
          · exact .inl hty
          · exact .inl (h1 _ _ hty)
        · rename_i e
          exact ih e (by simp) hd Γ w hty
        · rename_i e
          exact ih e (by simp) hd Γ w hty
        · rename_i e
          exact ih e (by simp) hd Γ w hty
        · rename_i sc arms
          obtain ⟨t, h1, h2⟩ := hty
          refine ⟨t, h1, fun d hd0 => each_want (fun w hw => ?_) (h2 d hd0)⟩
          simp only [onNestedKids, typedAsL, List.tail_cons] at hd0
          obtain ⟨n, hn, rfl⟩ := mem_typedAsL hd0
          exact ih n (by simp [hn]) (delivers_all hd n hn) _ w hw
        · rename_i c a b
          rw [Bool.and_eq_true] at hd
          obtain ⟨s, h1, h2, h3⟩ := hty
          refine ⟨s, h1, each_want (ih a (by simp) hd.1 _) h2, ?_⟩
          split at h3
          · rw [if_pos (by assumption)]
            exact ih b (by simp) hd.2 Γ w h3
          · rw [if_neg (by assumption)]
            exact each_want (ih b (by simp) hd.2 Γ) h3
        · cases hd

end

end AutoEnums
