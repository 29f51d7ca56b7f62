import Verif.Lemmas.Typing
import Verif.Lemmas.EvalDiverge

/-! # Lemmas: what counts as diverging has every type -/

namespace AutoEnums

open Spec

section

variable {T Sc : Type} {R : Rules T Sc} {G : Generated T}

open TypeRules

theorem calmL_mem {m : String} {l : List Node} (h : calmL m l = true) :
    ∀ n ∈ l, calm m n = true := by
  induction l with
  | nil => intro n hn; cases hn
  | cons a l ih =>
    rw [calmL, Bool.and_eq_true] at h
    intro n hn
    rcases List.mem_cons.mp hn with rfl | hn
    · exact h.1
    · exact ih h.2 n hn

/-- A block all of whose statements have their types has every type if its last statement has. -/
theorem stmts_never {w w' : Want T} : ∀ {Γ : Around T Sc} {ds : List (Judge T Sc)} {d : Judge T Sc},
    ds.getLast? = some d → (∀ Γ, d Γ w → d Γ w') → stmts R ds Γ w → stmts R ds Γ w'
  | _, [], _, h, _, _ => by cases h
  | _, [d], _, h, hd, hs => by
    simp only [List.getLast?_singleton, Option.some.injEq] at h
    subst h
    exact hd _ hs
  | _, d :: d' :: ds, _, h, hd, hs => by
    rw [List.getLast?_cons_cons] at h
    obtain ⟨s, h1, h2⟩ := hs
    exact ⟨s, h1, stmts_never h hd h2⟩

theorem confine_imp {k : Kind} {d d' : Judge T Sc} {w w' : Want T} (h : ∀ Γ, d Γ w → d' Γ w') {Γ : Around T Sc}
    (hd : confine k d Γ w) : confine k d' Γ w' := by
  unfold confine at hd ⊢
  split
  · rw [if_pos (by assumption)] at hd
    exact h _ hd
  · rw [if_neg (by assumption)] at hd
    exact ⟨hd.1, h _ hd.2⟩

theorem typedL_getLast {l : List Node} {n : Node} (h : l.getLast? = some n) :
    (typedL R G l).getLast? = some (typed R G n) := by
  induction l with
  | nil => cases h
  | cons a l ih =>
    cases l with
    | nil => simp only [List.getLast?_singleton, Option.some.injEq] at h; subst h; rfl
    | cons b l =>
      rw [List.getLast?_cons_cons] at h
      have := ih h
      rw [typedL] at this ⊢
      rw [typedL, List.getLast?_cons_cons]
      exact this

theorem panics_diverging {m : String} {p : Path} (h : divergingMacro m p = true)
    (hm : p ≠ ⟨false, [⟨m, none⟩]⟩) : Eval.panics p = true := by
  unfold divergingMacro at h
  rw [Bool.or_eq_true, beq_iff_eq] at h
  exact h.resolve_right hm

theorem never_of_tame {as : List Attr} (h : (as.all fun a => !named "never" a && !named "auto_enum" a) = true) :
    marked "never" as = false := by
  unfold marked
  rw [List.any_eq_false]
  simp only [List.all_eq_true, Bool.and_eq_true, Bool.not_eq_true'] at h
  intro a ha
  rw [(h a ha).1]
  simp

/-- A branch that has every type if it has one. -/
theorem each_never {d : Judge T Sc} {Γ : Around T Sc} {w' : Want T} (hw : w' ≠ .free) (h : ∀ w, d Γ w → d Γ w')
    {w : Want T} (he : each d Γ w) : each d Γ w' := by
  have : each d Γ w' = d Γ w' := by
    unfold each
    split
    · exact absurd rfl hw
    · rfl
  rw [this]
  unfold each at he
  split at he
  · obtain ⟨t, ht⟩ := he; exact h _ ht
  · exact h _ he

/-- `None?` and `Err(..)?` have every type. -/
theorem failing_typed (hR : Infers R) {e : Node} (hf : failing e = true) {Γ : Around T Sc} {t q u : T}
    (ht : typed R G e Γ (.is t)) (hq : R.question t q u) (u' : T) :
    ∃ t', typed R G e Γ (.is t') ∧ R.question t' q u' := by
  unfold failing at hf
  split at hf
  · rename_i p as ks
    rw [typed, confine, if_neg (by simp [binds])] at ht
    obtain ⟨hl, ht⟩ := ht
    simp only [node] at ht
    split at ht
    · exact ht.elim
    rename_i hv
    obtain ⟨us, h1, h2⟩ := ht
    obtain ⟨t', h4, h5⟩ := hR.none _ _ _ _ _ _ hf h2 hq u'
    refine ⟨t', ?_, h5⟩
    rw [typed, confine, if_neg (by simp [binds])]
    refine ⟨hl, ?_⟩
    simp only [node]
    rw [if_neg hv]
    exact ⟨us, h1, h4⟩
  · rename_i as p as' ks' a
    rw [typed, confine, if_neg (by simp [binds])] at ht
    obtain ⟨hl, ht⟩ := ht
    have hv : variantOf G.name (.ePath false p) = none := by
      unfold variantOf
      split
      · rename_i heq
        cases heq
        simp [isOneOf] at hf
      · rfl
    simp only [node, constructed, Node.kind, hv] at ht
    obtain ⟨us, h1, h2⟩ := ht
    match us, h1 with
    | [f, x], ⟨h1, h4, _⟩ =>
    rw [typed, confine, if_neg (by simp [binds])] at h1
    simp only [node, hv, Option.isSome_none, Bool.false_eq_true, if_false] at h1
    obtain ⟨hl1, us1, h5, h6⟩ := h1
    obtain ⟨f', t', h8, h9, h10⟩ := hR.err _ _ _ _ _ _ _ _ hf h6 h2 hq u'
    refine ⟨t', ?_, h10⟩
    rw [typed, confine, if_neg (by simp [binds])]
    refine ⟨hl, ?_⟩
    simp only [node, constructed, Node.kind, hv]
    refine ⟨[f', x], ⟨?_, h4, trivial⟩, h9⟩
    rw [typed, confine, if_neg (by simp [binds])]
    simp only [node, hv, Option.isSome_none, Bool.false_eq_true, if_false]
    exact ⟨hl1, us1, h5, h8⟩
  · cases hf

theorem diverges_typed (hR : Infers R) {m : String} : ∀ n : Node, diverges m n = true → tame [m] n = true →
    calm m n = true → ∀ w', w' ≠ .free → (w' = .never → ends m n = true) →
    ∀ Γ w, typed R G n Γ w → typed R G n Γ w' := by
  apply Node.strongInd
  rintro ⟨k, as, ks⟩ ih hu ht hc w' hfree hends Γ w hty
  rw [tame, Bool.and_eq_true, Bool.and_eq_true] at ht
  obtain ⟨⟨ha, hk⟩, hks⟩ := ht
  rw [calm, Bool.and_eq_true, Bool.and_eq_true] at hc
  obtain ⟨⟨hc0, -⟩, hcs⟩ := hc
  have hlast : ∀ (Γ : Around T Sc) (w : Want T) (l : List Node), sizeOf l ≤ sizeOf ks →
      (∀ n ∈ l, tame [m] n = true) → (∀ n ∈ l, calm m n = true) →
      endsInItem l = false → divergesLast m l = true → (w' = .never → endsLast m l = true) →
      stmts R (typedL R G l) Γ w → stmts R (typedL R G l) Γ w' := by
    intro Γ w l hsz htm hcm hei hul hel
    have : ∃ n, l.getLast? = some n ∧ ∀ Γ, typed R G n Γ w → typed R G n Γ w' := by
      revert hsz htm hcm hei hul hel
      induction l with
      | nil => intro _ _ _ _ h; cases h
      | cons a l ihl =>
        intro hsz htm hcm hei hul hel
        cases l with
        | cons b l =>
          obtain ⟨n, h1, h2⟩ := ihl (by simp only [List.cons.sizeOf_spec] at hsz ⊢; omega)
            (fun n hn => htm n (by simp [hn])) (fun n hn => hcm n (by simp [hn]))
            (by simpa [endsInItem, List.getLast?_cons_cons] using hei)
            (by rw [divergesLast] at hul; exact hul) (fun h => by have := hel h; rw [endsLast] at this; exact this)
          exact ⟨n, by rw [List.getLast?_cons_cons]; exact h1, h2⟩
        | nil =>
          refine ⟨a, rfl, ?_⟩
          have hta := htm a (by simp)
          have hca := hcm a (by simp)
          rw [divergesLast.eq_def] at hul
          split at hul
          · rename_i heq; cases heq
          · rename_i semi as' e heq
            cases heq
            rw [tame, Bool.and_eq_true, Bool.and_eq_true] at hta
            rw [calm, Bool.and_eq_true, Bool.and_eq_true] at hca
            have he := ih e (by simp only [List.cons.sizeOf_spec, Node.mk.sizeOf_spec] at hsz ⊢; omega) hul
              (by simpa [hidesCode, tameL] using hta.2) (by simpa [hidesCode, calmL] using hca.2)
            rw [typed]
            refine fun Γ => confine_imp fun Γ => ?_
            cases semi with
            | false => exact he w' hfree (fun h => by have := hel h; rw [endsLast] at this; exact this) Γ w
            | true =>
              rintro (h | ⟨⟨t, h⟩, -⟩)
              · exact .inl h
              · refine .inl (he .never (by simp) (fun _ => ?_) Γ _ h)
                have := hca.1.2
                simpa [fails, hul] using this
          · rename_i p as' e es heq
            cases heq
            rw [tame, Bool.and_eq_true, Bool.and_eq_true] at hta
            rw [calm, Bool.and_eq_true, Bool.and_eq_true] at hca
            have he := ih e (by simp only [List.cons.sizeOf_spec, Node.mk.sizeOf_spec] at hsz ⊢; omega) hul
              (by have := hta.2; rw [tameL, Bool.or_eq_true, Bool.and_eq_true] at this
                  exact (this.resolve_left (by simp [hidesCode])).1)
              (by have := hca.2; rw [calmL, Bool.or_eq_true, Bool.and_eq_true] at this
                  exact (this.resolve_left (by simp [hidesCode])).1)
              .never (by simp) (fun _ => by have := hca.1.2; simpa [fails, hul] using this)
            rw [typed]
            refine fun Γ => confine_imp fun Γ => ?_
            rintro ⟨t, s, h1, h2, h3, h4, -⟩
            exact ⟨t, s, h1, h2, h3, h4, .inl (he _ _ h3)⟩
          · rename_i heq
            cases heq
            simp [endsInItem] at hei
          · rename_i p t as' ks' heq
            cases heq
            rw [tame, Bool.and_eq_true, Bool.and_eq_true] at hta
            have hta2 := hta.1.2
            simp only [tameKind, List.all_cons, List.all_nil, Bool.and_true, bne_iff_ne, ne_eq] at hta2
            rw [typed]
            refine fun Γ => confine_imp fun Γ _ => ?_
            simp only [node]
            rw [if_pos (panics_diverging hul hta2)]
            trivial
          · cases hul
          · rename_i heq; cases heq
    obtain ⟨n, h1, h2⟩ := this
    exact stmts_never (typedL_getLast h1) h2
  have harms : ∀ (Γ : Around T Sc) (w : Want T) (l : List Node), sizeOf l ≤ sizeOf ks →
      (∀ n ∈ l, tame [m] n = true) → (∀ n ∈ l, calm m n = true) →
      divergesArms m l = true → (w' = .never → endsArms m l = true) → ∀ d ∈ typedL R G l, d Γ w → d Γ w' := by
    intro Γ w l
    induction l with
    | nil => intro _ _ _ _ _ d hd; cases hd
    | cons a l ihl =>
      intro hsz htm hcm hul hel d hd
      have hta := htm a (by simp)
      have hca := hcm a (by simp)
      have hrec : divergesArms m l = true → (w' = .never → endsArms m l = true) →
          ∀ d ∈ typedL R G l, d Γ w → d Γ w' :=
        ihl (by simp only [List.cons.sizeOf_spec] at hsz ⊢; omega) (fun n hn => htm n (by simp [hn]))
          (fun n hn => hcm n (by simp [hn]))
      rw [divergesArms.eq_def] at hul
      rw [typedL] at hd
      split at hul
      · rename_i heq; cases heq
      · rename_i p as' b ns heq
        cases heq
        rw [tame, Bool.and_eq_true, Bool.and_eq_true] at hta
        rw [calm, Bool.and_eq_true] at hca
        rw [Bool.and_eq_true, never_of_tame hta.1.1, Bool.false_or] at hul
        rcases List.mem_cons.mp hd with rfl | hd
        · have he := ih b (by simp only [List.cons.sizeOf_spec, Node.mk.sizeOf_spec] at hsz ⊢; omega) hul.1
            (by simpa [hidesCode, tameL] using hta.2) (by simpa [hidesCode, calmL] using hca.2) w' hfree
            (fun h => by have := hel h; rw [endsArms, Bool.and_eq_true] at this; exact this.1)
          rw [typed]
          exact confine_imp fun Γ ⟨s, h1, h2⟩ => ⟨s, h1, he _ _ h2⟩
        · exact hrec hul.2 (fun h => by have := hel h; rw [endsArms, Bool.and_eq_true] at this; exact this.2) d hd
      · rename_i p as' g b ns heq
        cases heq
        rw [tame, Bool.and_eq_true, Bool.and_eq_true] at hta
        rw [calm, Bool.and_eq_true] at hca
        rw [Bool.and_eq_true, never_of_tame hta.1.1, Bool.false_or] at hul
        rcases List.mem_cons.mp hd with rfl | hd
        · have he := ih b (by simp only [List.cons.sizeOf_spec, Node.mk.sizeOf_spec] at hsz ⊢; omega) hul.1
            (by have := hta.2; simp [hidesCode, tameL] at this; exact this.2)
            (by have := hca.2; simp [hidesCode, calmL] at this; exact this.2) w' hfree
            (fun h => by have := hel h; rw [endsArms, Bool.and_eq_true] at this; exact this.1)
          rw [typed]
          exact confine_imp fun Γ ⟨s, h1, s', h2, h3⟩ => ⟨s, h1, s', h2, he _ _ h3⟩
        · exact hrec hul.2 (fun h => by have := hel h; rw [endsArms, Bool.and_eq_true] at this; exact this.2) d hd
      · cases hul
  rw [diverges.eq_def] at hu
  dsimp only at hu
  rw [never_of_tame ha, Bool.and_false, Bool.false_or] at hu
  rw [typed] at hty ⊢
  revert hty
  refine confine_imp fun Γ hty => ?_
  rw [ends.eq_def] at hends
  split at hu
  · rename_i l
    have hei : endsInItem ks = false := by
      cases l <;> simp [tameKind] at hk
      · exact hk
      · exact hk.2
    have hl := fun Γ w => hlast Γ w ks (by omega) (tameL_mem (by simpa [hidesCode] using hks))
      (calmL_mem (by simpa [hidesCode] using hcs)) hei hu hends
    cases l with
    | none => exact hl Γ w hty
    | some l =>
      have h1 := hl _ _ hty
      simp only [node]
      -- nothing breaks to the label
      refine mono_stmts (S := fun k => k ≠ .eBreak (some l)) (fun d hd => ?_) _ _ _ _ ⟨fun x u hx hf => ?_, ?_, ?_, ?_⟩
        (.inr rfl) h1
      · obtain ⟨n, hn, rfl⟩ := mem_typedL hd
        intro Γ Γ' w w' hΓ hw hd
        refine typed_mono n Γ Γ' w w' ⟨fun x u hS => hΓ.targets x u ?_, fun _ => hΓ.ret (by simp), hΓ.answer,
          hΓ.here⟩ hw hd
        obtain ⟨y, hy, hyl⟩ := hS
        intro hb
        cases hb
        simp only [tameKind, Bool.and_eq_true, Bool.not_eq_true'] at hk
        have := hk.1
        unfold breaksTo at this
        rw [List.any_eq_false] at this
        exact this _ (visibleL_mem hn hy) (by simp [hyl])
      · refine ⟨u, ?_, .inr rfl⟩
        cases x with
        | none => simpa [Around.enter, findTarget] using hf
        | some x =>
          have hne : some l ≠ some x := fun h => hx (by rw [h])
          simp only [Around.enter, findTarget, if_neg hne] at hf ⊢
          exact hf
      · exact fun _ => .inr rfl
      · exact fun _ => id
      · rfl
  · have hei : endsInItem ks = false := by simpa [tameKind] using hk
    exact hlast Γ w ks (by omega) (tameL_mem (by simpa [hidesCode] using hks))
      (calmL_mem (by simpa [hidesCode] using hcs)) hei hu hends hty
  · exact hty
  · trivial
  · exact hty
  · simp only [tameKind, List.all_cons, List.all_nil, Bool.and_true, bne_iff_ne, ne_eq] at hk
    simp only [node]
    rw [if_pos (panics_diverging hu hk)]
    trivial
  · rename_i sc arms
    obtain ⟨t, h1, h2⟩ := hty
    refine ⟨t, h1, fun d hd => ?_⟩
    simp only [typedL, List.tail_cons] at hd h2
    refine each_never hfree (fun w => harms _ w arms ?_ ?_ ?_ hu hends d hd) (h2 d hd)
    · simp only [List.cons.sizeOf_spec]; omega
    · intro n hn
      exact tameL_mem (by simpa [hidesCode] using hks) n (by simp [hn])
    · intro n hn
      exact calmL_mem (by simpa [hidesCode] using hcs) n (by simp [hn])
  · rename_i e
    obtain ⟨t, q, h1, h2, h3⟩ := hty
    obtain ⟨u, h3⟩ := some_holds h3
    cases w' with
    | free => exact absurd rfl hfree
    | never => cases hends rfl
    | is u' =>
      obtain ⟨t', h4, h5⟩ := failing_typed hR hu (Γ := Γ) h1 h3 u'
      exact ⟨t', q, h4, h2, h5⟩
  · rename_i e es
    simp [callsOn, hu] at hc0
  · rename_i e
    simp only [node, typedL, kid, List.getElem?_cons_zero] at hty ⊢
    refine ih e ?_ hu ?_ ?_ w' hfree hends Γ w hty
    · simp only [List.cons.sizeOf_spec, Node.mk.sizeOf_spec]; omega
    · exact tameL_mem (by simpa [hidesCode] using hks) e (by simp)
    · exact calmL_mem (by simpa [hidesCode] using hcs) e (by simp)
  · cases hu

theorem abrupt_typed (hR : Infers R) {m : String} {n : Node} (h : abrupt m n = true) (hc : calm m n = true) {Γ : Around T Sc}
    {w : Want T} (hty : typed R G n Γ w) (t : T) : typed R G n Γ (.is t) := by
  unfold abrupt at h
  rw [Bool.and_eq_true] at h
  obtain ⟨ht, h⟩ := h
  split at h
  · rename_i p as b
    rw [tame, Bool.and_eq_true] at ht
    rw [calm, Bool.and_eq_true, Bool.and_eq_true] at hc
    rw [typed] at hty ⊢
    revert hty
    exact confine_imp fun Γ ⟨s, h1, h2⟩ => ⟨s, h1, diverges_typed hR b h (by simpa [hidesCode, tameL] using ht.2)
      (by simpa [hidesCode, calmL] using hc.2) _ (by simp) (by simp) _ _ h2⟩
  · rename_i p as g b
    rw [tame, Bool.and_eq_true] at ht
    rw [calm, Bool.and_eq_true, Bool.and_eq_true] at hc
    rw [typed] at hty ⊢
    revert hty
    exact confine_imp fun Γ ⟨s, h1, s', h2, h3⟩ => ⟨s, h1, s', h2, diverges_typed hR b h
      (by have := ht.2; simp [hidesCode, tameL] at this; exact this.2)
      (by have := hc.2; simp [hidesCode, calmL] at this; exact this.2) _ (by simp) (by simp) _ _ h3⟩
  · rename_i as ss
    rw [Bool.and_eq_true, Bool.not_eq_true'] at h
    rw [tame, Bool.and_eq_true, Bool.and_eq_true] at ht
    rw [calm, Bool.and_eq_true, Bool.and_eq_true] at hc
    have := diverges_typed hR (G := G) (m := m) (.mk .eUnsafe [] ss)
      (by rw [diverges.eq_def]; simpa using .inr h.1)
      (by rw [tame, Bool.and_eq_true, Bool.and_eq_true]
          exact ⟨⟨rfl, by simp [tameKind, h.2]⟩, by simpa [hidesCode] using ht.2⟩)
      (by rw [calm, Bool.and_eq_true, Bool.and_eq_true]; exact ⟨⟨rfl, rfl⟩, by simpa [hidesCode] using hc.2⟩)
      (.is t) (by simp) (by simp) Γ w
    rw [typed] at this hty ⊢
    exact this hty
  · exact diverges_typed hR n h ht hc _ (by simp) (by simp) Γ w hty

end

end AutoEnums
