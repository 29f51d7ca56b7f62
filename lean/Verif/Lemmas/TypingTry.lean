import Verif.Lemmas.TypingRun
import Verif.Lemmas.EvalTry
import Verif.Spec.TypingTry

/-! # Lemmas: types in the mode that desugars `?` -/

namespace AutoEnums

open Spec

section

variable {T Sc : Type} {R R' : Rules T Sc} {q : T → T → T → Prop} {G : Generated T} {J : Job} {P : Want T → Option T → Prop}

open TypeRules

/-- What has a type has it after, where `return`s and `try` blocks expect something that satisfies `P`. -/
def Stays (P : Want T → Option T → Prop) (d d' : Judge T Sc) : Prop :=
  ∀ Γ w, P Γ.ret Γ.tries → d Γ w → d' Γ w

/-- The rules with another rule for `?`. -/
def asking (R : Rules T Sc) (q : T → T → T → Prop) : Rules T Sc := { R with question := q }

theorem asking_none : asking R (fun _ _ _ => False) = R.withoutQuestions := rfl

theorem asking_back : asking R.withoutQuestions R.question = R := rfl

theorem stays_kid {ds ds' : List (Judge T Sc)} (h : PairL (fun _ => Stays P) ds ds') (i : Nat) :
    Stays P (kid ds i) (kid ds' i) := by
  intro Γ w hΓ
  unfold kid
  rcases h.get i with ⟨h1, h2⟩ | ⟨d, d', h1, h2, h3⟩
  · rw [h1, h2]; exact id
  · rw [h1, h2]; exact h3 _ _ hΓ

theorem stays_each {d d' : Judge T Sc} (h : Stays P d d') : Stays P (each d) (each d') := by
  intro Γ w hΓ
  unfold each
  split
  · rintro ⟨t, ht⟩; exact ⟨t, h _ _ hΓ ht⟩
  · exact h _ _ hΓ

theorem stays_stmts {ds : List (Judge T Sc)} : ∀ {ds'}, PairL (fun _ => Stays P) ds ds' →
    Stays P (stmts R ds) (stmts (asking R q) ds') := by
  induction ds with
  | nil => intro ds' h Γ w hΓ hs; cases h; exact hs
  | cons d ds ih =>
    intro ds' h Γ w hΓ hs
    cases h with
    | cons h1 h2 =>
      cases h2 with
      | nil => exact h1 _ _ hΓ hs
      | cons h3 h4 =>
        obtain ⟨s, hs1, hs2⟩ := hs
        exact ⟨s, h1 _ _ hΓ hs1, ih (.cons h3 h4) _ _ hΓ hs2⟩

theorem stays_kinds {Γ : Around T Sc} (hΓ : P Γ.ret Γ.tries) :
    ∀ {ds ds' : List (Judge T Sc)} {us : List T}, PairL (fun _ => Stays P) ds ds' → kinds ds Γ us → kinds ds' Γ us
  | [], _, [], h, _ => by cases h; trivial
  | d :: ds, _, u :: us, h, hk => by
    cases h with
    | cons h1 h2 => exact ⟨h1 _ _ hΓ hk.1, stays_kinds hΓ h2 hk.2⟩
  | [], _, _ :: _, _, hk => hk.elim
  | _ :: _, _, [], _, hk => hk.elim

theorem stays_other {k : Kind} {ds ds' : List (Judge T Sc)} (h : PairL (fun _ => Stays P) ds ds') :
    Stays P (other R k ds) (other (asking R q) k ds') := by
  rintro Γ w hΓ ⟨us, h1, h2⟩
  exact ⟨us, stays_kinds hΓ h h1, h2⟩

theorem stays_freeze {k : Kind} {ks ks' : List Node} (h : noAttrsL ks' = noAttrsL ks) :
    Stays P (freeze R k ks) (freeze (asking R q) k ks') := by
  rintro Γ w hΓ hf
  unfold freeze at hf ⊢
  rw [h]
  exact hf

theorem stays_value {ds ds' : List (Judge T Sc)} (h : PairL (fun _ => Stays P) ds ds') :
    Stays P (value R ds) (value (asking R q) ds') := by
  intro Γ u hΓ hv
  unfold value at hv ⊢
  rw [h.isEmpty]
  split
  · rw [if_pos (by assumption)] at hv; exact hv
  · rw [if_neg (by assumption)] at hv
    exact stays_each (stays_kid h 0) _ _ hΓ hv

/-- A node other than `?` that stays what it is. -/
theorem node_unasked {k : Kind} {ks ks' : List Node} {ds ds' : List (Judge T Sc)} (hne : k ≠ .eTry)
    (hblk : k = .eTryBlock → ∀ r o u, P r o → P r (some u))
    (hk : hidesCode k = false → isFrozen k = false → PairL (fun _ => Stays P) ds ds')
    (hfr : hidesCode k = true ∨ isFrozen k = true → noAttrsL ks' = noAttrsL ks)
    (hcon : k = .eCall → constructed G.name ks' = constructed G.name ks)
    (hif : k = .eIf → isIf ks'[2]? = isIf ks[2]?) :
    Stays P (node R G k ks ds) (node (asking R q) G k ks' ds') := by
  intro Γ w hΓ hd
  by_cases hoth : isSimple k = true
  · have : ∀ (R : Rules T Sc) ks ds Γ w, node R G k ks ds Γ w = other R k ds Γ w := by
      intro R ks ds Γ w; cases k <;> first | rfl | cases hoth
    rw [this] at hd ⊢
    refine stays_other (hk ?_ ?_) _ _ hΓ hd
    · cases k <;> first | rfl | cases hoth
    · cases k <;> first | rfl | cases hoth
  cases k <;> try (exact absurd rfl hoth)
  case block => exact stays_stmts (hk rfl rfl) _ _ hΓ hd
  case eUnsafe => exact stays_stmts (hk rfl rfl) _ _ hΓ hd
  case eConst => exact stays_stmts (hk rfl rfl) _ _ hΓ hd
  case eBlock l =>
    cases l with
    | none => exact stays_stmts (hk rfl rfl) _ _ hΓ hd
    | some l => exact stays_stmts (hk rfl rfl) _ _ hΓ hd
  case sExpr semi =>
    have h := stays_kid (hk (by cases semi <;> rfl) (by cases semi <;> rfl)) 0
    cases semi with
    | false => exact h _ _ hΓ hd
    | true =>
      rcases hd with hd | ⟨⟨t, hd⟩, ha⟩
      · exact .inl (h _ _ hΓ hd)
      · exact .inr ⟨⟨t, h _ _ hΓ hd⟩, ha⟩
  case eParen => exact stays_kid (hk rfl rfl) 0 _ _ hΓ hd
  case eGroup => exact stays_kid (hk rfl rfl) 0 _ _ hΓ hd
  case sLocal p =>
    have h := hk rfl rfl
    obtain ⟨t, s, h3, h4, hd⟩ := hd
    refine ⟨t, s, h3, h4, ?_⟩
    cases h with
    | nil => exact hd
    | cons h1 h2 =>
      obtain ⟨h3, h5, h6⟩ := hd
      refine ⟨h1 _ _ hΓ h3, fun e he => ?_, h6.imp (h1 _ _ hΓ) id⟩
      obtain ⟨e0, he0, hke⟩ := h2.mem he
      exact hke _ _ hΓ (h5 e0 he0)
  case eLet p =>
    obtain ⟨t, s, h1, h2, h3, h4⟩ := hd
    exact ⟨t, s, stays_kid (hk rfl rfl) 0 _ _ hΓ h1, h2, h3, h4⟩
  case eBinary op =>
    have h := hk rfl rfl
    simp only [node] at hd ⊢
    split
    · rw [if_pos (by assumption)] at hd
      obtain ⟨s, h1, h2, h3⟩ := hd
      exact ⟨s, stays_kid h 0 (Γ.before s) _ hΓ h1, stays_kid h 1 (Γ.within s) _ hΓ h2, h3⟩
    · rw [if_neg (by assumption)] at hd
      exact stays_other h _ _ hΓ hd
  case sItem => exact hd
  case eMatch =>
    have h := hk rfl rfl
    obtain ⟨t, h1, h2⟩ := hd
    refine ⟨t, stays_kid h 0 _ _ hΓ h1, fun d hd => ?_⟩
    cases h with
    | nil => cases hd
    | cons _ h =>
      obtain ⟨d0, hd0, hkd⟩ := h.mem hd
      exact stays_each hkd (Γ.on t) _ hΓ (h2 d0 hd0)
  case arm p =>
    have h := hk rfl rfl
    obtain ⟨s, h1, h2⟩ := hd
    refine ⟨s, h1, ?_⟩
    cases h with
    | nil => exact h2
    | cons h3 h => cases h with
      | nil => exact h3 (Γ.within s) _ hΓ h2
      | cons h4 h => cases h with
        | nil =>
          obtain ⟨s', h2, h5⟩ := h2
          exact ⟨s', h3 ((Γ.within s).before s') _ hΓ h2, h4 (Γ.within s') _ hΓ h5⟩
        | cons => exact h2
  case eIf =>
    have h := hk rfl rfl
    have hif := hif rfl
    obtain ⟨s, h0, hd⟩ := hd
    refine ⟨s, stays_kid h 0 (Γ.before s) _ hΓ h0, ?_⟩
    rw [hif]
    cases h with
    | nil => exact hd
    | cons h3 h => cases h with
      | nil => exact hd
      | cons h4 h => cases h with
        | nil => exact ⟨h4 (Γ.within s) _ hΓ hd.1, hd.2⟩
        | cons h5 h => cases h with
          | nil =>
            refine ⟨stays_each h4 (Γ.within s) _ hΓ hd.1, ?_⟩
            have h6 := hd.2
            split
            · rw [if_pos (by assumption)] at h6
              exact h5 _ _ hΓ h6
            · rw [if_neg (by assumption)] at h6
              exact stays_each h5 _ _ hΓ h6
          | cons => exact hd
  case eLoop l => exact stays_kid (hk rfl rfl) 0 (Γ.enter l true w) _ hΓ hd
  case eWhile l =>
    have h := hk rfl rfl
    obtain ⟨s, h1, h2, h3⟩ := hd
    exact ⟨s, stays_kid h 0 ((Γ.enter l true (.is R.unit)).before s) _ hΓ h1,
      stays_kid h 1 ((Γ.enter l true (.is R.unit)).within s) _ hΓ h2, h3⟩
  case eForLoop l p =>
    have h := hk rfl rfl
    obtain ⟨t, s, h1, h2, h3, h4⟩ := hd
    exact ⟨t, s, stays_kid h 0 _ _ hΓ h1, h2, stays_kid h 1 ((Γ.enter l true (.is R.unit)).within s) _ hΓ h3, h4⟩
  case eBreak l =>
    obtain ⟨u, h1, h2⟩ := hd
    exact ⟨u, h1, stays_value (hk rfl rfl) _ _ hΓ h2⟩
  case eContinue => trivial
  case eReturn => exact stays_value (hk rfl rfl) _ _ hΓ hd
  case eTry => exact absurd rfl hne
  case eTryBlock =>
    obtain ⟨t, u, h1, h2, h3⟩ := hd
    exact ⟨t, u, stays_stmts (hk rfl rfl) { Γ with tries := some u } _ (hblk rfl _ _ u hΓ) h1, h2, h3⟩
  case eMacro p t =>
    simp only [node] at hd ⊢
    split
    · trivial
    · rw [if_neg (by assumption)] at hd
      exact stays_freeze (hfr (.inl rfl)) _ _ hΓ hd
  case sMacro p t =>
    simp only [node] at hd ⊢
    split
    · trivial
    · rw [if_neg (by assumption)] at hd
      exact stays_freeze (hfr (.inl rfl)) _ _ hΓ hd
  case eClosure => exact stays_freeze (hfr (.inr rfl)) _ _ hΓ hd
  case eAsync => exact stays_freeze (hfr (.inr rfl)) _ _ hΓ hd
  case eVerbatim => exact stays_freeze (hfr (.inl rfl)) _ _ hΓ hd
  case eTuple =>
    have h := hk rfl rfl
    simp only [node] at hd ⊢
    rw [h.isEmpty]
    split
    · rw [if_pos (by assumption)] at hd; exact hd
    · rw [if_neg (by assumption)] at hd
      exact stays_other h _ _ hΓ hd
  case ePath q p =>
    simp only [node] at hd ⊢
    split
    · rw [if_pos (by assumption)] at hd; exact hd
    · rw [if_neg (by assumption)] at hd
      exact stays_other (hk rfl rfl) _ _ hΓ hd
  case eCall =>
    have h := hk rfl rfl
    simp only [node] at hd ⊢
    rw [hcon rfl]
    split at hd
    · obtain ⟨t, h1, h2, h3⟩ := hd
      exact ⟨t, stays_kid h 1 _ _ hΓ h1, h2, h3⟩
    · exact stays_other h _ _ hΓ hd
  case eMethodCall => exact stays_other (hk rfl rfl) _ _ hΓ hd

theorem stays_confine {k k' : Kind} {d d' : Judge T Sc} (hk : binds k' = binds k) (h : Stays P d d') :
    Stays P (confine k d) (confine k' d') := by
  intro Γ w hΓ hd
  unfold confine at hd ⊢
  rw [hk]
  split
  · rw [if_pos (by assumption)] at hd
    exact h _ _ hΓ hd
  · rw [if_neg (by assumption)] at hd
    exact ⟨hd.1, h Γ.inside _ hΓ hd.2⟩

theorem pairL_self {A : Type} {Q : A → A → Prop} {B : Type} (f g : B → A) : ∀ l : List B,
    (∀ b ∈ l, Q (f b) (g b)) → PairL (fun _ => Q) (l.map f) (l.map g)
  | [], _ => .nil
  | b :: l, h => .cons (h b (by simp)) (pairL_self f g l fun c hc => h c (by simp [hc]))

theorem typedL_map : ∀ l : List Node, typedL R G l = l.map (typed R G)
  | [] => rfl
  | _ :: l => by rw [typedL, List.map_cons, typedL_map l]

/-- Code without `?` is typed by the rules without `?`. -/
theorem typed_unasked : ∀ n : Node, asks n = false →
    Stays (fun _ _ => True) (typed R G n) (typed R.withoutQuestions G n) := by
  refine Node.ind (P := fun n => asks n = false →
    Stays (fun _ _ => True) (typed R G n) (typed R.withoutQuestions G n)) ?_
  intro k as ks ih ha
  rw [asks, Bool.or_eq_false_iff, Bool.and_eq_false_iff] at ha
  rw [typed, typed]
  refine stays_confine rfl (node_unasked (by rintro rfl; simp at ha) (fun _ _ _ _ h => h) (fun _ hf => ?_)
    (fun _ => rfl) (fun _ => rfl) (fun _ => rfl))
  have h1 : asksL ks = false := ha.2.resolve_left (by rw [hf]; simp)
  rw [typedL_map, typedL_map]
  refine pairL_self _ _ ks fun n hn => ih n hn ?_
  clear ih ha hf
  induction ks with
  | nil => cases hn
  | cons a l ihl =>
    rw [asksL, Bool.or_eq_false_iff] at h1
    rcases List.mem_cons.mp hn with rfl | hn
    · exact h1.1
    · exact ihl h1.2 hn

/-- The desugared `?`. -/
theorem typed_tryMatch {R' : Rules T Sc} {E Q : T} (hU : KnowsResults R E Q) (hR : R' = R.withoutQuestions)
    (hE : G.type = E) (hP : ∀ x t, G.payload x t) {as : List Attr} {v : Ident} {e : Node} {Γ : Around T Sc}
    {w : Want T} {t : T} (hn : Γ.here.next = none) (hret : Γ.ret = .is Q) (he : typed R' G e Γ (.is t))
    (hw : w.holds (R.question t Q)) : typed R' G (tryMatch as G.name v e) Γ w := by
  unfold tryMatch
  rw [typed_node fun _ => (by exact hn)]
  simp only [node, typedL, kid, List.getElem?_cons_zero, List.tail_cons, List.map_cons, List.map_nil]
  refine ⟨t, he, fun d hd => ?_⟩
  obtain ⟨u, hq⟩ := some_holds hw
  have hvar : ∀ (x : Ident) (Γ : Around T Sc) (w : Want T), Γ.here.next = none →
      w.holds (R.node Γ.here.scope (variable_ x) []) →
      typed R' G (.mk (.ePath false ⟨false, [⟨x, none⟩]⟩) [] []) Γ w := by
    intro x Γ w hn hx
    rw [typed_node fun _ => (by exact hn)]
    simp only [node, variantOf, Option.isSome_none, Bool.false_eq_true, if_false, typedL]
    exact ⟨[], trivial, by rw [hR]; exact hx⟩
  simp only [List.mem_cons, List.not_mem_nil, or_false] at hd
  rcases hd with rfl | rfl
  · obtain ⟨s', h1, h2⟩ := hU.ok Γ.here.scope t u hq
    have h3 : ∀ w' : Want T, w'.holds (R.question t Q) → typed R' G (.mk (.arm "::core::result::Result::Ok(val)") []
        [.mk (.ePath false ⟨false, [⟨"val", none⟩]⟩) [] []]) (Γ.on t) w' := by
      intro w' hw'
      rw [typed_node fun _ => (by exact hn)]
      simp only [node, typedL]
      exact ⟨s', by rw [hR]; exact h1, hvar "val" ((Γ.on t).within s') w' hn (holds_imp h2 hw')⟩
    cases w with
    | is t' => exact h3 _ hw
    | free => exact ⟨u, h3 _ hq⟩
    | never => exact h3 _ hw
  · obtain ⟨s', x, f, h1, h2, h3, h4⟩ := hU.err Γ.here.scope t u hq
    have h5 : typed R' G (construct [] G.name v (.mk (.ePath false ⟨false, [⟨"err", none⟩]⟩) [] []))
        ((Γ.on t).within s') (.is G.type) :=
      typed_construct hP hn (hvar "err" ((Γ.on t).within s') (.is x) hn h2)
    have h6 : ∀ w' : Want T, typed R' G (.mk (.arm "::core::result::Result::Err(err)") []
        [.mk (.eBlock none) [] [.mk (.sExpr true) [] [.mk .eReturn [] [.mk .eCall [] [
          .mk (.ePath false ⟨true, [⟨"core", none⟩, ⟨"result", none⟩, ⟨"Result", none⟩, ⟨"Err", none⟩]⟩) [] [],
          construct [] G.name v (.mk (.ePath false ⟨false, [⟨"err", none⟩]⟩) [] [])]]]]]) (Γ.on t) w' := by
      intro w'
      rw [typed_node fun _ => (by exact hn)]
      simp only [node, typedL]
      refine ⟨s', by rw [hR]; exact h1, ?_⟩
      rw [typed_node fun _ => (by exact hn)]
      simp only [node, typedL, stmts]
      rw [typed_node fun _ => (by exact hn)]
      simp only [node, typedL, kid, List.getElem?_cons_zero]
      left
      rw [typed_node fun _ => (by exact hn)]
      simp only [node, typedL, value, List.isEmpty_cons, Bool.false_eq_true, if_false]
      show each _ _ Γ.ret
      rw [hret]
      simp only [each, kid, List.getElem?_cons_zero]
      rw [typed_node fun _ => (by exact hn)]
      simp only [node, constructed, Node.kind, variantOf]
      refine ⟨[f, G.type], ⟨?_, h5, trivial⟩, by rw [hR, hE]; exact h4⟩
      rw [typed_node fun _ => (by exact hn)]
      simp only [node, variantOf, Option.isSome_none, Bool.false_eq_true, if_false, typedL]
      exact ⟨[], trivial, by rw [hR]; exact h3⟩
    cases w with
    | is t' => exact h6 _
    | free => exact ⟨u, h6 _⟩
    | never => exact h6 _

/-- The kinds that nodes have after. -/
theorem kind_asked {w : Where} {ts : List Target} {r : Role} {n n' : Node}
    (hc : ctors J.en n = 0) (h : Alike J.en n' (treat J w ts r n)) :
    n'.kind = n.kind ∨ (n.kind = .eTry ∧ n'.kind = .eMatch) ∨
      ((∃ p t, n.kind = .eMacro p t) ∧ n'.kind = .eCall) := by
  obtain ⟨k, as, ks⟩ := n
  simp only [ctors, weigh_mk] at hc
  have hk0 : isCtor J.en (k, as) = 0 := by omega
  cases hm : callsMacro J.marker k with
  | true =>
    obtain ⟨t, rfl⟩ := callsMacro_iff.mp hm
    rw [treat.eq_def] at h
    simp only [assemble] at h
    split at h
    · obtain ⟨v, y, rfl, -⟩ := ctor_inv (by simpa using h)
      exact .inr (.inr ⟨⟨_, _, rfl⟩, rfl⟩)
    · obtain ⟨k', ks', rfl, h1, -⟩ := h.inv
      rw [kind_of_blur (as := as) rfl h1]
      exact .inl rfl
  | false =>
    have h2 := treat_kind_tries (J := J) (w := w) (ts := ts) (r := r) (k := k) (as := as) (ks := ks) (by
      rintro p t rfl rfl
      rw [callsMacro_iff.mpr ⟨_, rfl⟩] at hm
      cases hm)
    revert h2 h
    generalize treat J w ts r (.mk k as ks) = t
    obtain ⟨tk, tas, tks⟩ := t
    intro h hk
    simp only [Node.kind] at hk
    obtain ⟨k', ks', rfl, h1, h2⟩ := h.inv
    rcases hk with rfl | ⟨rfl, rfl⟩
    · rw [kind_of_blur (as := as) hk0 h1]
      exact .inl rfl
    · rw [kind_of_blur (as := []) rfl h1]
      exact .inr (.inl ⟨rfl, rfl⟩)

theorem variantOf_asked {w : Where} {ts : List Target} {r : Role} {n n' : Node}
    (hc : ctors J.en n = 0) (h : Alike J.en n' (treat J w ts r n)) (en : Ident) :
    variantOf en n'.kind = variantOf en n.kind := by
  rcases kind_asked hc h with h | ⟨h1, h2⟩ | ⟨⟨p, t, h1⟩, h2⟩
  · rw [h]
  · rw [h1, h2]; rfl
  · rw [h1, h2]; rfl

theorem isIf_asked {w : Where} {ts : List Target} {r : Role} {n n' : Node}
    (hc : ctors J.en n = 0) (h : Alike J.en n' (treat J w ts r n)) : isIf (some n') = isIf (some n) := by
  have : ∀ n : Node, isIf (some n) = match n.kind with | .eIf => true | _ => false := by
    rintro ⟨k, as, ks⟩
    cases k <;> rfl
  rw [this, this]
  rcases kind_asked hc h with h | ⟨h1, h2⟩ | ⟨⟨p, t, h1⟩, h2⟩
  · rw [h]
  · rw [h1, h2]
  · rw [h1, h2]

/-- A relation between judgements that respects desugaring. -/
structure Desugaring (S : Judge T Sc → Judge T Sc → Prop) (R R' : Rules T Sc) (G : Generated T) (m : String) : Prop where
  keep : ∀ {k : Kind} {ks ks' : List Node} {ds ds' : List (Judge T Sc)}, k ≠ .eTry → k ≠ .eTryBlock →
    (hidesCode k = false → isFrozen k = false → PairL (fun _ => S) ds ds') →
    (hidesCode k = true ∨ isFrozen k = true → noAttrsL ks' = noAttrsL ks) →
    (k = .eCall → constructed G.name ks' = constructed G.name ks) → (k = .eIf → isIf ks'[2]? = isIf ks[2]?) →
    S (confine k (node R G k ks ds)) (confine k (node R' G k ks' ds'))
  ask : ∀ {e e' : Node} {d : Judge T Sc} {as : List Attr} {v : Ident}, S d (typed R' G e') →
    S (confine .eTry (node R G .eTry [e] [d])) (typed R' G (tryMatch as G.name v e'))
  mark : ∀ {k : Kind} {as as' : List Attr} {v : Ident} {e : Node}, callsMacro m k = true → asks e = false →
    S (typedIn R G m (.mk k as [e])) (typed R' G (construct as' G.name v e))

/-- The desugaring of `?`. -/
theorem typed_asks {S : Judge T Sc → Judge T Sc → Prop} (hS : Desugaring S R R' G J.marker) (hG : G.name = J.en)
    (hb : J.branches = false) (hret : J.returns = false) (ht : J.tries = true) :
    ∀ (n : Node) (w : Where) (ts : List Target) (r : Role) (n' : Node), w.closure = false → w.tryBlock = false →
    noneOurs ts → askable J.marker n = true → ctors J.en n = 0 → Alike J.en n' (treat J w ts r n) →
    S (typedIn R G J.marker n) (typed R' G n') := by
  refine Node.ind (P := fun n => ∀ (w : Where) (ts : List Target) (r : Role) (n' : Node), w.closure = false →
    w.tryBlock = false → noneOurs ts → askable J.marker n = true → ctors J.en n = 0 →
    Alike J.en n' (treat J w ts r n) → S (typedIn R G J.marker n) (typed R' G n')) ?_
  intro k as ks ih w ts r n' hcl htb hts hcp hct ha
  rw [askable] at hcp
  simp only [Bool.and_eq_true, Bool.not_eq_true', Bool.or_eq_true, beq_iff_eq, bne_iff_ne,
    Bool.and_eq_false_iff] at hcp
  obtain ⟨⟨⟨⟨⟨hnest, hblk⟩, htry⟩, hmac⟩, hfro⟩, hkids⟩ := hcp
  replace hkids : hidesCode k = false → isFrozen k = false → askableL J.marker ks = true := by
    intro h1 h2
    rcases hkids with (h | h) | h
    · rw [h1] at h; cases h
    · rw [h2] at h; cases h
    · exact h
  simp only [ctors, weigh_mk] at hct
  have hk0 : isCtor J.en (k, as) = 0 := by omega
  -- markers
  cases hmk : callsMacro J.marker k with
  | true =>
    obtain ⟨hl, hq⟩ := hmac.resolve_left (by rw [hmk]; simp)
    obtain ⟨t, rfl⟩ := callsMacro_iff.mp hmk
    match ks, hl with
    | [e], _ =>
      rw [treat.eq_def] at ha
      simp only [assemble, if_true] at ha
      obtain ⟨v, y, rfl, hy⟩ := ctor_inv ha
      have he0 : ctors J.en e = 0 := by
        simp only [weighL_cons] at hct
        simp only [ctors]; omega
      have hye : y = e := by
        have h3 : ctors J.en y = 0 := by rw [hy.ctors, he0]
        unfold Alike at hy
        rwa [noAttrs_blur _ he0, noAttrs_blur _ h3] at hy
      subst hye
      rw [asksL, asksL, Bool.or_false] at hq
      rw [← hG]
      exact hS.mark hmk hq
  | false =>
  have hnb : carries k = true → marked "nested" as = false := by
    intro h
    rcases hnest with h1 | h1
    · rw [h] at h1; cases h1
    · exact h1
  have hD : typedIn R G J.marker (.mk k as ks) = confine k (node R G k ks (typedInL R G J.marker ks)) := by
    rw [typedIn_node (by rw [hmk]; rfl), onNestedKids_plain hnb]
    have : nestedExpr k as = false := by
      unfold nestedExpr
      rw [Bool.and_eq_false_iff]
      cases hx : isExpression k with
      | false => exact .inl rfl
      | true => exact .inr (hnb (by cases k <;> first | rfl | cases hx))
    rw [this, onNested_false]
  rw [hD]
  rw [treat.eq_def] at ha
  dsimp only at ha
  rw [role_none hb] at ha
  -- the kids
  have hsim : hidesCode k = false → isFrozen k = false → ∀ ks',
      AlikeL J.en ks' (treatL J (w.enter k) (fun i => kidTargets ts .plain k as i)
        (fun i => kidRole .plain k as ks.length i) ks) →
      PairL (fun _ => S) (typedInL R G J.marker ks)
        (typedL R' G ks') := by
    intro hh hf ks' hks'
    have hcl' : (w.enter k).closure = false := by
      cases k <;> first | exact hcl | cases hf
    have htb' : (w.enter k).tryBlock = false := by
      cases k <;> first | exact htb | exact absurd rfl hblk
    have : ∀ (l l' : List Node) (ts : Nat → List Target) (rs : Nat → Role), (∀ n ∈ l, n ∈ ks) →
        (∀ i, noneOurs (ts i)) → weighL (isCtor J.en) l = 0 → askableL J.marker l = true →
        AlikeL J.en l' (treatL J (w.enter k) ts rs l) →
        PairL (fun _ => S) (typedInL R G J.marker l)
          (typedL R' G l') := by
      intro l
      induction l with
      | nil => intro l' ts rs _ _ _ _ h; rw [alikeL_nil h]; exact .nil
      | cons a l ihl =>
        intro l' ts rs hmem hts hc hs h
        rw [askableL, Bool.and_eq_true] at hs
        rw [weighL_cons] at hc
        simp only [treatL] at h
        obtain ⟨a', m, rfl, h1, h2⟩ := alikeL_inv h
        exact .cons (ih a (hmem a (by simp)) _ _ _ _ hcl' htb' (hts 0) hs.1 (by simp only [ctors]; omega) h1)
          (ihl m _ _ (fun n hn => hmem n (by simp [hn])) (fun i => hts _) (by omega) hs.2 h2)
    exact this ks ks' _ _ (fun _ h => h) (fun i => hts.kid (by simp)) (by omega) (hkids hh hf) hks'
  -- nodes that stay
  have hkeep : ∀ as' ks', n' = .mk k as' ks' →
      AlikeL J.en ks' (if hidesCode k then ks else treatL J (w.enter k) (fun i => kidTargets ts .plain k as i)
        (fun i => kidRole .plain k as ks.length i) ks) →
      k ≠ .eTry →
      S (confine k (node R G k ks (typedInL R G J.marker ks))) (typed R' G n') := by
    rintro as' ks' rfl hks' hne
    rw [typed]
    refine hS.keep hne hblk (fun hh hf => ?_) ?_ ?_ ?_
    · rw [hh] at hks'
      exact hsim hh hf ks' hks'
    · intro hhf
      by_cases hh : hidesCode k = true
      · rw [if_pos hh] at hks'
        have h1 : ctors J.en (.mk .block [] ks) = 0 := by
          simp only [ctors, weigh_mk]
          have : isCtor J.en (.block, []) = 0 := rfl
          omega
        have h2 : Alike J.en (.mk .block [] ks') (.mk .block [] ks) := .node _ _ hks'
        have h3 : ctors J.en (.mk .block [] ks') = 0 := by rw [h2.ctors, h1]
        unfold Alike at h2
        rw [noAttrs_blur _ h1, noAttrs_blur _ h3] at h2
        cases h2
        rfl
      · have hf := hhf.resolve_left hh
        rw [if_neg hh] at hks'
        have hfr := hfro.resolve_left (by rw [hf]; simp)
        rw [List.all_eq_true] at hfr
        have hi1 : ∀ l ∈ visibleL ks, ∀ p t, l.1 = .eMacro p t → p ≠ ⟨false, [⟨J.marker, none⟩]⟩ := by
          rintro l hl p t hlk rfl
          have := hfr l hl
          rw [hlk, callsMacro_iff.mpr ⟨_, rfl⟩] at this
          simp at this
        have hkt : ∀ i, kidTargets ts .plain k as i = [] := by
          intro i; cases k <;> first | rfl | cases hf
        have hnt : (w.enter k).closure = true ∨ ∀ l ∈ visibleL ks, l.1 ≠ .eTry := by
          cases k <;> first | (cases hf; done) | exact .inl rfl | skip
          right
          intro l hl
          have := hfr l hl
          simp at this
          exact this.2
        have : ∀ (l l' : List Node) (ts : Nat → List Target) (rs : Nat → Role), (∀ n ∈ l, n ∈ ks) →
            weighL (isCtor J.en) l = 0 → (∀ i, ts i = []) →
            AlikeL J.en l' (treatL J (w.enter k) ts rs l) → noAttrsL l' = noAttrsL l := by
          intro l
          induction l with
          | nil => intro l' ts rs _ _ _ h; rw [alikeL_nil h]
          | cons a l ihl =>
            intro l' ts rs hmem hc hts h
            rw [weighL_cons] at hc
            simp only [treatL] at h
            obtain ⟨a', m, rfl, h1, h2⟩ := alikeL_inv h
            rw [hts] at h1
            rw [noAttrsL, noAttrsL, ihl m _ _ (fun n hn => hmem n (by simp [hn])) (by omega)
              (fun i => hts _) h2]
            have hv : ∀ x ∈ visible a, x ∈ visibleL ks := fun x hx => visibleL_mem (hmem a (by simp)) hx
            rw [alike_of_noAttrs (treat_untried hb hret a _ _ _ (by intro t ht; cases ht)
              (fun x hx => hi1 x (hv x hx)) ?_) (by simp only [ctors]; omega) h1]
            rcases hnt with h | h
            · exact .inl h
            · exact .inr fun x hx => h x (hv x hx)
        exact this ks ks' _ _ (fun _ h => h) (by omega) hkt hks'
    · rintro rfl
      simp only [hidesCode, Bool.false_eq_true, if_false] at hks'
      have hl : ks'.length = ks.length := by rw [hks'.length, treatL_length]
      match ks, ks', hl with
      | [], [], _ => rfl
      | [_], [_], _ => rfl
      | _ :: _ :: _ :: _, _ :: _ :: _ :: _, _ => rfl
      | [a, b], [a', b'], _ =>
        simp only [constructed]
        simp only [treatL] at hks'
        rw [weighL_cons] at hct
        exact variantOf_asked (by simp only [ctors]; omega) (alikeL_cons.mp hks').1 _
    · rintro rfl
      simp only [hidesCode, Bool.false_eq_true, if_false] at hks'
      have hl : ks'.length = ks.length := by rw [hks'.length, treatL_length]
      match ks, ks', hl with
      | [], [], _ => rfl
      | [_], [_], _ => rfl
      | [_, _], [_, _], _ => rfl
      | a :: b :: c :: _, a' :: b' :: c' :: _, _ =>
        simp only [treatL] at hks'
        simp only [weighL_cons] at hct
        exact isIf_asked (by simp only [ctors]; omega)
          (alikeL_cons.mp (alikeL_cons.mp (alikeL_cons.mp hks').2).2).1
  have hcls : ∀ {ks2}, Alike J.en n' (.mk k (if carries k then strip as else as) ks2) →
      ∃ ks', n' = .mk k (if carries k then strip as else as) ks' ∧ AlikeL J.en ks' ks2 := by
    intro ks2 h
    obtain ⟨k', ks', rfl, h1, h2⟩ := h.inv
    rw [kind_of_blur hk0 h1]
    exact ⟨ks', rfl, h2⟩
  unfold assemble at ha
  dsimp only at ha
  split at ha
  · -- `return`
    simp only [hret, Bool.false_and, Bool.false_eq_true, if_false] at ha
    obtain ⟨ks', rfl, hks'⟩ := hcls ha
    exact hkeep _ _ rfl hks' (by simp)
  · -- `break`
    rw [hits_noneOurs (hts.through _ _)] at ha
    simp only [Bool.false_and, Bool.false_eq_true, if_false] at ha
    obtain ⟨ks', rfl, hks'⟩ := hcls ha
    exact hkeep _ _ rfl hks' (by simp)
  · -- `?`
    obtain ⟨⟨hnev, hl⟩, hic⟩ := htry.resolve_left (by simp)
    match ks, hl with
    | [e], _ =>
      have hsim := hsim rfl rfl
      simp only [hidesCode, Bool.false_eq_true, if_false, treatL] at ha hsim
      rw [if_pos (by simp [ht, Where.enter, hcl, htb, hnev, hic])] at ha
      obtain ⟨v, e', rfl, he⟩ := tryMatch_inv ha
      have h0 := hsim [e'] (.cons he rfl)
      simp only [typedInL, typedL] at h0
      cases h0 with
      | cons h0 _ =>
        rw [← hG]
        exact hS.ask h0
  · -- macros
    rename_i p t
    have ha : Alike J.en n' (.mk (.eMacro p t) (if carries (.eMacro p t) then strip as else as) ks) := by
      split at ha
      · rw [if_neg] at ha
        · exact ha
        · rintro rfl
          rw [callsMacro_iff.mpr ⟨_, rfl⟩] at hmk
          cases hmk
      · exact ha
    obtain ⟨ks', rfl, hks'⟩ := hcls ha
    exact hkeep _ _ rfl hks' (by simp)
  · obtain ⟨ks', rfl, hks'⟩ := hcls ha
    exact hkeep _ _ rfl hks' (by simp)
  · obtain ⟨ks', rfl, hks'⟩ := hcls ha
    exact hkeep _ _ rfl hks' (by simp)
  · obtain ⟨ks', rfl, hks'⟩ := hcls ha
    exact hkeep _ _ rfl hks' (by simp)
  · obtain ⟨ks', rfl, hks'⟩ := hcls ha
    refine hkeep _ _ rfl hks' fun h => ?_
    subst h; simp_all

/-- Types are kept. -/
theorem desugaring_stays {E Q : T} (hU : KnowsResults R E Q) (hE : G.type = E) (hP : ∀ x t, G.payload x t) (m : String) :
    Desugaring (Stays fun r o => r = .is Q ∧ o = none) R R.withoutQuestions G m where
  keep hne hblk hk hfr hcon hif :=
    stays_confine rfl (node_unasked (q := fun _ _ _ => False) hne (fun h => absurd h hblk) hk hfr hcon hif)
  ask := by
    rintro e e' d as v h0 Γ u ⟨hΓ1, hΓ2⟩ hty
    obtain ⟨hlv, t, q, h1, h2, h3⟩ := hty
    have hq : q = Q := by
      simp only [Around.answer, Around.inside, hΓ1, hΓ2] at h2
      exact (Option.some.inj h2).symm
    subst hq
    exact typed_outside rfl hlv (typed_tryMatch hU rfl hE hP rfl hΓ1 (h0 _ _ ⟨hΓ1, hΓ2⟩ h1) h3)
  mark := by
    intro k as as' v e hm hq Γ u hΓ hty
    rw [typedIn_marker (by rw [hm]; rfl)] at hty
    obtain ⟨hs, ⟨t, ht⟩, ha⟩ := hty
    exact typed_outside rfl hs (typed_construct_want hP rfl (typed_unasked e hq _ _ trivial ht) ha)

/-- Code that is typed by the rules without `?` is typed by the others. -/
theorem typed_asked : ∀ n : Node, Stays (fun _ _ => True) (typed R.withoutQuestions G n) (typed R G n) := by
  refine Node.ind (P := fun n => Stays (fun _ _ => True) (typed R.withoutQuestions G n) (typed R G n)) ?_
  intro k as ks ih
  rw [typed, typed]
  by_cases hk : k = .eTry
  · subst hk
    rintro Γ w - ⟨-, t, q, -, -, h⟩
    exact (some_holds h).elim fun _ h => h.elim
  · refine stays_confine rfl (node_unasked (R := R.withoutQuestions) (q := R.question) hk (fun _ _ _ _ h => h)
      (fun _ _ => ?_) (fun _ => rfl) (fun _ => rfl) (fun _ => rfl))
    rw [typedL_map, typedL_map]
    exact pairL_self _ _ ks fun n hn => ih n hn

/-- What was desugared. -/
theorem typed_untryMatch {Q : T} (hU : DemandsResults R Q) {as : List Attr} {v : Ident} {e : Node}
    {Γ : Around T Sc} {w : Want T} (hn : Γ.here.next = none) 
    (h : typed R.withoutQuestions G (tryMatch as G.name v e) Γ w) :
    ∃ t, typed R.withoutQuestions G e Γ (.is t) ∧ w.holds (R.question t Q) := by
  unfold tryMatch at h
  rw [typed_node fun _ => hn] at h
  simp only [node, typedL, kid, List.getElem?_cons_zero, List.tail_cons, List.map_cons, List.map_nil] at h
  obtain ⟨t, he, h⟩ := h
  have h1 := h _ (List.mem_cons_self ..)
  have h2 : ∀ w', typed R.withoutQuestions G (.mk (.arm "::core::result::Result::Ok(val)") []
        [.mk (.ePath false ⟨false, [⟨"val", none⟩]⟩) [] []]) (Γ.on t) w' → w'.holds (R.question t Q) := by
    intro w' h
    rw [typed_node fun _ => (by exact hn)] at h
    simp only [node, typedL] at h
    obtain ⟨s, hs, h⟩ := h
    rw [typed_node fun _ => (by exact hn)] at h
    simp only [node, variantOf, Option.isSome_none, Bool.false_eq_true, if_false, typedL] at h
    obtain ⟨us, hu, h3⟩ := h
    match us, hu with
    | [], _ => exact holds_imp (fun _ h => hU.ok _ _ _ _ hs h) h3
  cases w with
  | is t' => exact ⟨t, he, h2 _ h1⟩
  | never => exact ⟨t, he, h2 _ h1⟩
  | free =>
    obtain ⟨t', h1⟩ := h1
    exact ⟨t, he, t', h2 _ h1⟩

theorem pairL_symm {A : Type} {S : A → A → Prop} {l l' : List A} (h : PairL (fun _ => S) l l') :
    PairL (fun _ a b => S b a) l' l := by
  generalize hQ : (fun _ : Nat => S) = Q at h
  induction h with
  | nil => exact .nil
  | cons h _ ih => subst hQ; exact .cons h (ih rfl)

/-- Types were there before. -/
theorem desugaring_back {Q : T} (hU : DemandsResults R Q) (m : String) :
    Desugaring (fun d d' => Stays (fun r o => r = .is Q ∧ o = none) d' d) R R.withoutQuestions G m where
  keep hne hblk hk hfr hcon hif := by
    refine stays_confine rfl (node_unasked (R := R.withoutQuestions) (q := R.question) hne (fun h => absurd h hblk)
      (fun h1 h2 => ?_) (fun h => (hfr h).symm) (fun h => (hcon h).symm) fun h => (hif h).symm)
    exact pairL_symm (hk h1 h2)
  ask := by
    rintro e e' d as v h0 Γ u ⟨hΓ1, hΓ2⟩ hty
    have hlv : Γ.leaves Γ.here.scope ∧ typed R.withoutQuestions G (tryMatch as G.name v e') Γ.inside u := by
      unfold tryMatch at hty ⊢
      rw [typed, confine] at hty
      exact ⟨hty.1, by rw [typed_node fun _ => rfl]; exact hty.2⟩
    obtain ⟨t, h1, h2⟩ := typed_untryMatch hU rfl hlv.2
    refine ⟨hlv.1, t, Q, h0 _ _ ⟨hΓ1, hΓ2⟩ h1, ?_, h2⟩
    simp only [Around.answer, Around.inside, hΓ1, hΓ2]
  mark := by
    intro k as as' v e hm hq Γ u hΓ hty
    rw [typedIn_marker (by rw [hm]; rfl)]
    obtain ⟨hs, ⟨t, ht⟩, ha⟩ := typed_construct_inv hty
    exact ⟨hs, ⟨t, typed_asked e _ _ trivial ht⟩, ha⟩

/-- The expansion in the mode that desugars `?` has the type that the code had. -/
theorem typed_out_tries {E Q : T} (hU : KnowsResults R E Q) {env : Env} {traits : List Path} {en : Ident}
    {m : String} {n out : Node} (h : Accepted env traits en m n out) (hs : Simple en m n)
    (ht : (jobOf en m n).tries = true) (hc : askable m (startOf n) = true)
    {Γ : Around T Sc} (hn : Γ.here.next = none) (hret : Γ.ret = .is Q) (htr : Γ.tries = none) {w : Want T}
    (hty : typedIn R ⟨en, E, fun _ _ => False⟩ m (startOf n) Γ w) :
    ∃ σ : Ident → T, typed R.withoutQuestions ⟨en, E, fun x t => t = σ x⟩ (counterpart n out) Γ w := by
  obtain ⟨it, b', h1, h2⟩ := counterpart_started h hs (.inr ht)
  have hen := jobOf_en en m n
  have hmk := jobOf_marker en m n
  have h0 : ctors en (startOf n) = 0 := by
    have := weigh_start (isCtor en) n rfl
    have := hs.fresh
    simp only [ctors] at this ⊢
    omega
  refine typed_payload _ (fun x => ?_) _ _ ?_
  · exact Nat.le_trans (weigh_counterpart (isUse en x) n out rfl) (uses_out h hs x)
  · rw [h2.typed_last hn]
    unfold typedIn at hty
    rw [typedAs_congr (P' := fun _ _ => True) _ fun x hx => by
      have := uses_le_ctors en x (startOf n)
      omega] at hty
    obtain ⟨hb, hr⟩ := jobOf_tries_only ht
    exact typed_asks (J := jobOf en m n) (G := ⟨en, E, fun _ _ => True⟩)
      (desugaring_stays hU rfl (fun _ _ => trivial) _) hen.symm hb hr ht _ {} [] _ b' rfl rfl (by intro t ht; cases ht) (by rw [hmk]; exact hc) (by rw [hen]; exact h0)
      (by rw [hen]; exact h1) Γ w ⟨hret, htr⟩ (by rw [hmk]; exact hty)

/-- The converse. -/
theorem typed_source_tries {E Q : T} (hU : DemandsResults R Q) {env : Env} {traits : List Path} {en : Ident}
    {m : String} {n out : Node} (h : Accepted env traits en m n out) (hs : Simple en m n)
    (ht : (jobOf en m n).tries = true) (hc : askable m (startOf n) = true) (P : Ident → T → Prop)
    {Γ : Around T Sc} (hn : Γ.here.next = none) (hret : Γ.ret = .is Q) (htr : Γ.tries = none) {w : Want T}
    (hty : typed R.withoutQuestions ⟨en, E, P⟩ (counterpart n out) Γ w) :
    typedIn R ⟨en, E, fun _ _ => False⟩ m (startOf n) Γ w := by
  obtain ⟨it, b', h1, h2⟩ := counterpart_started h hs (.inr ht)
  have hen := jobOf_en en m n
  have hmk := jobOf_marker en m n
  have h0 : ctors en (startOf n) = 0 := by
    have := weigh_start (isCtor en) n rfl
    have := hs.fresh
    simp only [ctors] at this ⊢
    omega
  rw [h2.typed_last hn] at hty
  unfold typedIn
  rw [typedAs_congr (P' := P) _ fun x hx => by
    have := uses_le_ctors en x (startOf n)
    omega]
  obtain ⟨hb, hr⟩ := jobOf_tries_only ht
  have h3 := typed_asks (J := jobOf en m n) (G := ⟨en, E, P⟩) (desugaring_back hU _) hen.symm hb hr ht _ {} [] _ b' rfl
    rfl (by intro t ht; cases ht) (by rw [hmk]; exact hc) (by rw [hen]; exact h0) (by rw [hen]; exact h1)
  rw [hmk] at h3
  exact h3 Γ w ⟨hret, htr⟩ hty

end

end AutoEnums
