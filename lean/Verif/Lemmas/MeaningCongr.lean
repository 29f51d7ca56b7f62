import Verif.Spec.Meaning

/-! # What looks the same does the same (for C65) -/

namespace AutoEnums

open Spec Eval

variable {B S : Type} {M : Machine B S} {code : Code B S} {O : Observer B S}

namespace Spec.Blind

theorem outcome_trans (hB : Blind M code O) {a b c : Outcome B} (h : O.outcome a b) (h' : O.outcome b c) :
    O.outcome a c := by
  cases a <;> cases b <;> first
    | exact h.elim
    | (cases c <;> first
        | exact h'.elim
        | exact hB.value_trans _ _ _ h h'
        | exact ⟨h'.1.trans h.1, hB.value_trans _ _ _ h.2 h'.2⟩
        | exact ⟨h'.1, hB.value_trans _ _ _ h h'.2⟩
        | exact ⟨h.1, hB.value_trans _ _ _ h.2 h'⟩
        | exact Eq.trans h' h
        | exact trivial)

theorem result_trans (hB : Blind M code O) {a b c : Res B S} (h : O.result a b) (h' : O.result b c) :
    O.result a c := by
  rcases a with _ | ⟨a, s⟩ <;> rcases b with _ | ⟨b, t⟩ <;> first
    | exact h.elim
    | (rcases c with _ | ⟨c, u⟩ <;> first
        | exact h'.elim
        | exact trivial
        | exact ⟨hB.outcome_trans h.1 h'.1, hB.state_trans _ _ _ h.2 h'.2⟩)

theorem den_trans (hB : Blind M code O) {a b c : Den B S} (h : O.den a b) (h' : O.den b c) : O.den a c :=
  fun _ y _ t hx hs => hB.result_trans (h _ y _ t hx hs) (h' y y t t (hB.value_refl y) (hB.state_refl t))

theorem values_refl (hB : Blind M code O) : ∀ vs, O.values vs vs
  | [] => trivial
  | v :: vs => ⟨hB.value_refl v, values_refl hB vs⟩

theorem values_snoc {v w : Value B} : ∀ {vs ws : List (Value B)}, O.values vs ws → O.value v w →
    O.values (vs ++ [v]) (ws ++ [w])
  | [], [], _, h => ⟨h, trivial⟩
  | _ :: _, _ :: _, h, h' => ⟨h.1, values_snoc h.2 h'⟩

end Spec.Blind

theorem andThen_congr {r r' : Res B S} {g g' : Value B → S → Res B S} (h : O.result r r')
    (hg : ∀ v w s t, O.value v w → O.state s t → O.result (g v s) (g' w t)) :
    O.result (andThen r g) (andThen r' g') := by
  rcases r with _ | ⟨o, s⟩ <;> rcases r' with _ | ⟨o', t⟩ <;> first
    | exact h.elim
    | exact trivial
    | skip
  cases o <;> cases o' <;> first
    | exact h.1.elim
    | exact hg _ _ _ _ h.1 h.2
    | exact h

theorem dens_get {ds es : List (Den B S)} (h : O.dens ds es) (i : Nat) :
    (ds[i]? = none ∧ es[i]? = none) ∨ ∃ d e, ds[i]? = some d ∧ es[i]? = some e ∧ O.den d e := by
  induction ds generalizing es i with
  | nil =>
    cases es with
    | nil => exact .inl ⟨rfl, rfl⟩
    | cons => exact h.elim
  | cons d ds ih =>
    cases es with
    | nil => exact h.elim
    | cons e es =>
      cases i with
      | zero => exact .inr ⟨d, e, rfl, rfl, h.1⟩
      | succ i => simpa using ih h.2 i

theorem dens_length {ds es : List (Den B S)} (h : O.dens ds es) : es.length = ds.length := by
  induction ds generalizing es with
  | nil =>
    cases es with
    | nil => rfl
    | cons => exact h.elim
  | cons d ds ih =>
    cases es with
    | nil => exact h.elim
    | cons e es => simp [ih h.2]

theorem dens_empty {ds es : List (Den B S)} (h : O.dens ds es) : es.isEmpty = ds.isEmpty := by
  cases ds <;> cases es <;> first
    | rfl
    | exact h.elim

theorem dens_tail {ds es : List (Den B S)} (h : O.dens ds es) : O.dens ds.tail es.tail := by
  cases ds <;> cases es <;> first
    | exact h.elim
    | exact trivial
    | exact h.2

theorem under_congr {x y : Value B} (hx : O.value x y) : ∀ {ds es : List (Den B S)}, O.dens ds es →
    O.dens (under x ds) (under y es)
  | [], [], _ => trivial
  | _ :: _, _ :: _, h => ⟨fun _ _ s t _ hs => h.1 x y s t hx hs, under_congr hx h.2⟩

section
variable (hB : Blind M code O)
include hB

theorem kid_congr {ds es : List (Den B S)} (h : O.dens ds es) (i : Nat) {s t : S} (hs : O.state s t) :
    O.result (kid M ds i s) (kid M es i t) := by
  unfold kid
  rcases dens_get h i with ⟨h1, h2⟩ | ⟨d, e, h1, h2, h3⟩ <;> rw [h1, h2]
  · exact ⟨trivial, hs⟩
  · exact h3 _ _ _ _ (hB.value_refl _) hs

theorem discard_congr {r r' : Res B S} (h : O.result r r') : O.result (discard M r) (discard M r') :=
  andThen_congr h fun _ _ _ _ _ hs => ⟨hB.value_refl _, hs⟩

theorem stmts_congr : ∀ {ds es : List (Den B S)} {s t : S}, O.dens ds es → O.state s t →
    O.result (stmts M ds s) (stmts M es t)
  | [], [], _, _, _, hs => ⟨hB.value_refl _, hs⟩
  | [_], [_], _, _, h, hs => h.1 _ _ _ _ (hB.value_refl _) hs
  | _ :: _ :: _, _ :: _ :: _, _, _, h, hs =>
    andThen_congr (h.1 _ _ _ _ (hB.value_refl _) hs) fun _ _ _ _ _ hs => stmts_congr h.2 hs

omit hB in
theorem labelled_congr {l : Option String} {r r' : Res B S} (h : O.result r r') :
    O.result (labelled l r) (labelled l r') := by
  rcases r with _ | ⟨o, s⟩ <;> rcases r' with _ | ⟨o', t⟩ <;> first
    | exact h.elim
    | exact trivial
    | skip
  cases o <;> cases o' <;> first
    | exact h.1.elim
    | exact h
    | skip
  rename_i a v b w
  obtain ⟨⟨h1, h2⟩, h3⟩ := h
  subst h1
  cases b with
  | none => exact ⟨⟨rfl, h2⟩, h3⟩
  | some b =>
    simp only [labelled]
    split
    · exact ⟨h2, h3⟩
    · exact ⟨⟨rfl, h2⟩, h3⟩

omit hB in
theorem arms_congr {v w : Value B} (hv : O.value v w) : ∀ {ds es : List (Den B S)} {s t : S}, O.dens ds es →
    O.state s t → O.result (arms v ds s) (arms w es t)
  | [], [], _, _, _, hs => ⟨trivial, hs⟩
  | d :: ds, e :: es, s, t, h, hs => by
    have h1 := h.1 v w s t hv hs
    unfold arms
    rcases hd : d v s with _ | ⟨o, s1⟩ <;> rcases he : e w t with _ | ⟨o', t1⟩ <;> rw [hd, he] at h1 <;> first
      | exact h1.elim
      | exact trivial
      | skip
    cases o <;> cases o' <;> first
      | exact h1.1.elim
      | exact arms_congr hv h.2 h1.2
      | exact h1

theorem arm_congr {p : String} {ds es : List (Den B S)} (h : O.dens ds es) {v w : Value B} (hv : O.value v w)
    {s t : S} (hs : O.state s t) : O.result (arm M p ds v s) (arm M p es w t) := by
  unfold arm
  obtain ⟨h1, h2⟩ := hB.test p v w s t hv hs
  dsimp only
  rw [h1]
  split
  · match ds, es, h with
    | [], [], _ => exact ⟨trivial, h2⟩
    | [_], [_], h => exact h.1 _ _ _ _ (hB.value_refl _) h2
    | [_, _], [_, _], h =>
      refine andThen_congr (h.1 _ _ _ _ (hB.value_refl _) h2) fun c c' a b hc hab => ?_
      rw [hB.truth _ _ _ _ hc hab]
      split
      · exact h.2.1 _ _ _ _ (hB.value_refl _) hab
      · exact ⟨trivial, hab⟩
    | _ :: _ :: _ :: _, _ :: _ :: _ :: _, _ => exact ⟨trivial, h2⟩
  · exact ⟨trivial, h2⟩

theorem cond_congr {ds es : List (Den B S)} (h : O.dens ds es) {s t : S} (hs : O.state s t) :
    O.result (cond M ds s) (cond M es t) := by
  refine andThen_congr (kid_congr hB h 0 hs) fun v w a b hv hab => ?_
  rw [hB.truth _ _ _ _ hv hab, dens_length h]
  split
  · exact kid_congr hB h 1 hab
  · split
    · exact ⟨hB.value_refl _, hab⟩
    · exact kid_congr hB h 2 hab

omit hB in
theorem round_congr {l : Option String} {r r' : Res B S} {next next' : S → Res B S}
    {leave leave' : Value B → S → Res B S} (h : O.result r r')
    (hn : ∀ s t, O.state s t → O.result (next s) (next' t))
    (hl : ∀ v w s t, O.value v w → O.state s t → O.result (leave v s) (leave' w t)) :
    O.result (round l r next leave) (round l r' next' leave') := by
  rcases r with _ | ⟨o, s⟩ <;> rcases r' with _ | ⟨o', t⟩ <;> first
    | exact h.elim
    | exact trivial
    | skip
  cases o <;> cases o' <;> first
    | exact h.1.elim
    | exact hn _ _ h.2
    | exact h
    | skip
  · obtain ⟨⟨h1, h2⟩, h3⟩ := h
    subst h1
    simp only [round]
    split
    · exact hl _ _ _ _ h2 h3
    · exact ⟨⟨rfl, h2⟩, h3⟩
  · obtain ⟨h1, h3⟩ := h
    cases h1
    simp only [round]
    split
    · exact hn _ _ h3
    · exact ⟨rfl, h3⟩

omit hB in
theorem loop_congr {l : Option String} {d e : S → Res B S} (h : ∀ s t, O.state s t → O.result (d s) (e t)) :
    ∀ (f : Nat) {s t : S}, O.state s t → O.result (loop l d f s) (loop l e f t)
  | 0, _, _, _ => trivial
  | f + 1, _, _, hs => round_congr (h _ _ hs) (fun _ _ => loop_congr h f) fun _ _ _ _ hv hs => ⟨hv, hs⟩

theorem while_congr {l : Option String} {c c' d d' : S → Res B S}
    (hc : ∀ s t, O.state s t → O.result (c s) (c' t)) (h : ∀ s t, O.state s t → O.result (d s) (d' t)) :
    ∀ (f : Nat) {s t : S}, O.state s t → O.result (while_ M l c d f s) (while_ M l c' d' f t)
  | 0, _, _, _ => trivial
  | f + 1, s, t, hs => by
    have h1 := hc s t hs
    have hn := fun s t => while_congr (l := l) hc h f (s := s) (t := t)
    have hl : ∀ (v w : Value B) (s t : S), O.value v w → O.state s t →
        O.result (some (.val (unit M), s)) (some (.val (unit M), t)) := fun _ _ _ _ _ hs => ⟨hB.value_refl _, hs⟩
    unfold while_
    dsimp only
    rcases hd : c s with _ | ⟨o, s1⟩ <;> rcases he : c' t with _ | ⟨o', t1⟩ <;> rw [hd, he] at h1 <;> first
      | exact h1.elim
      | exact trivial
      | skip
    cases o <;> cases o' <;> first
      | exact h1.1.elim
      | exact round_congr h1 hn hl
      | skip
    dsimp only
    rw [hB.truth _ _ _ _ h1.1 h1.2]
    split
    · exact round_congr (h _ _ h1.2) hn hl
    · exact hl _ _ _ _ h1.1 h1.2

theorem for_congr {k : Kind} {l : Option String} {v w : Value B} (hv : O.value v w) {d d' : S → Res B S}
    (h : ∀ s t, O.state s t → O.result (d s) (d' t)) :
    ∀ (f : Nat) {s t : S}, O.state s t → O.result (for_ M k l v d f s) (for_ M k l w d' f t)
  | 0, _, _, _ => trivial
  | f + 1, s, t, hs => by
    have h1 := hB.step k [v] [w] s t ⟨hv, trivial⟩ hs
    unfold for_
    cases ha : M.step k [v] s <;> cases hb : M.step k [w] t <;> rw [ha, hb] at h1 <;> first
      | exact h1.elim
      | skip
    · exact round_congr (h _ _ h1.2) (fun _ _ => for_congr hv h f) fun _ _ _ _ _ hs => ⟨hB.value_refl _, hs⟩
    · exact ⟨hB.value_refl _, h1.2⟩
    · exact ⟨trivial, h1⟩

theorem other_congr {k : Kind} {ds es : List (Den B S)} (h : O.dens ds es) :
    ∀ (f : Nat) {vs ws : List (Value B)} {s t : S}, O.values vs ws → O.state s t →
      O.result (other M k ds f vs s) (other M k es f ws t)
  | 0, _, _, _, _, _, _ => trivial
  | f + 1, vs, ws, s, t, hv, hs => by
    have h1 := hB.step k vs ws s t hv hs
    unfold other
    cases ha : M.step k vs s <;> cases hb : M.step k ws t <;> rw [ha, hb] at h1 <;> first
      | exact h1.elim
      | skip
    · obtain ⟨rfl, h2⟩ := h1
      exact andThen_congr (kid_congr hB h _ h2) fun _ _ _ _ hx hs => other_congr h f (Blind.values_snoc hv hx) hs
    · exact h1
    · exact ⟨trivial, h1⟩

theorem first_congr {k : Kind} {ds es : List (Den B S)} (h : O.dens ds es) (f : Nat) {s t : S}
    (hs : O.state s t) : O.result (first M k ds f s) (first M k es f t) := by
  unfold first
  rw [dens_empty h]
  split
  · exact other_congr hB h f trivial hs
  · exact andThen_congr (kid_congr hB h 0 hs) fun _ _ _ _ hv hs => other_congr hB h f ⟨hv, trivial⟩ hs

omit hB in
theorem settle_congr {r r' : Option (Value B) × S} (h : O.settled r r') : O.result (settle r) (settle r') := by
  rcases r with ⟨_ | _, _⟩ <;> rcases r' with ⟨_ | _, _⟩ <;> first
    | exact h.elim
    | exact ⟨trivial, h⟩
    | exact h

theorem question_congr {v w : Value B} (hv : O.value v w) {s t : S} (hs : O.state s t) :
    O.result
      (if M.fails v then some (.fail v, s) else match M.step .eTry [v] s with
        | .done v s => some (.val v, s)
        | .kid _ s | .panic s => some (.panic, s))
      (if M.fails w then some (.fail w, t) else match M.step .eTry [w] t with
        | .done v s => some (.val v, s)
        | .kid _ s | .panic s => some (.panic, s)) := by
  rw [hB.fails _ _ hv]
  split
  · exact ⟨hv, hs⟩
  · have h1 := hB.step .eTry [v] [w] s t ⟨hv, trivial⟩ hs
    cases ha : M.step .eTry [v] s <;> cases hb : M.step .eTry [w] t <;> rw [ha, hb] at h1 <;> first
      | exact h1.elim
      | exact ⟨trivial, h1.2⟩
      | exact ⟨trivial, h1⟩
      | exact h1

/-- Nodes whose kids look the same do. -/
theorem mean_congr {marks : String → Bool} {f : Nat} {k : Kind} {ks ls : List Node} {ds es : List (Den B S)}
    (hk : O.exits → k ≠ .eTryBlock) (hks : k.isOpaque = true → ls = ks) (h : O.dens ds es) :
    O.den (mean M code marks f k ks ds) (mean M code marks f k ls es) := by
  intro x y s t hx hs
  have hu := under_congr hx h
  have hr := hB.value_refl
  cases k <;> simp only [mean] <;> first
    | exact other_congr hB hu f trivial hs
    | exact stmts_congr hB hu hs
    | exact labelled_congr (stmts_congr hB hu hs)
    | exact discard_congr hB (first_congr hB hu f hs)
    | exact first_congr hB hu f hs
    | exact ⟨hr _, hs⟩
    | exact kid_congr hB hu 0 hs
    | exact andThen_congr (kid_congr hB hu 0 hs) fun _ _ _ _ hv hs => arms_congr hv (dens_tail h) hs
    | exact arm_congr hB hu hx hs
    | exact cond_congr hB hu hs
    | exact loop_congr (fun _ _ hs => kid_congr hB hu 0 hs) f hs
    | exact while_congr hB (fun _ _ hs => kid_congr hB hu 0 hs) (fun _ _ hs => kid_congr hB hu 1 hs) f hs
    | exact andThen_congr (kid_congr hB hu 0 hs) fun _ _ _ _ hv hs =>
        for_congr hB hv (fun _ _ hs => kid_congr hB hu 1 hs) f hs
    | exact ⟨rfl, hs⟩
    | exact andThen_congr (kid_congr hB hu 0 hs) fun _ _ _ _ hv hs => question_congr hB hv hs
    | exact settle_congr (hB.code _ _ _ _ _ hu hs)
    | (rw [hks rfl]; exact settle_congr (hB.frozen _ _ _ _ hs))
    | skip
  case eBreak =>
    rw [dens_empty hu]
    split
    · exact ⟨⟨rfl, hr _⟩, hs⟩
    · exact andThen_congr (kid_congr hB hu 0 hs) fun _ _ _ _ hv hs => ⟨⟨rfl, hv⟩, hs⟩
  case eReturn =>
    rw [dens_empty hu]
    split
    · exact ⟨hr _, hs⟩
    · exact andThen_congr (kid_congr hB hu 0 hs) fun _ _ _ _ hv hs => ⟨hv, hs⟩
  case sExpr =>
    split
    · exact discard_congr hB (kid_congr hB hu 0 hs)
    · exact kid_congr hB hu 0 hs
  case eTuple =>
    rw [dens_empty hu]
    split
    · exact ⟨hr _, hs⟩
    · exact other_congr hB hu f trivial hs
  case eMacro =>
    rw [hks rfl, dens_length h]
    split
    · exact kid_congr hB hu 0 hs
    · split
      · exact ⟨trivial, hs⟩
      · exact settle_congr (hB.frozen _ _ _ _ hs)
  case sMacro =>
    rw [hks rfl]
    split
    · exact ⟨trivial, hs⟩
    · exact settle_congr (hB.frozen _ _ _ _ hs)
  case eTryBlock =>
    have h1 := stmts_congr hB hu hs
    generalize stmts M (under x ds) s = r at h1 ⊢
    generalize stmts M (under y es) t = r' at h1 ⊢
    rcases r with _ | ⟨o, s1⟩ <;> rcases r' with _ | ⟨o', t1⟩ <;> first
      | exact h1.elim
      | exact trivial
      | skip
    cases o <;> cases o' <;> first
      | exact h1.1.elim
      | exact absurd rfl (hk h1.1.1)
      | exact ⟨hB.tried _ _ _ h1.1, h1.2⟩
      | exact h1

end

end AutoEnums
