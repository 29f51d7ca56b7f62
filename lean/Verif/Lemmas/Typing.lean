import Verif.Spec.Typing
import Verif.Lemmas.EvalMark

/-! # Lemmas: typing rules -/

namespace AutoEnums

open Spec

section

variable {T Sc : Type} {R : Rules T Sc} {G : Generated T}

open TypeRules

/-! ## Diverging code has every type -/

/-- What is up to the first expectation is up to the second. -/
def Want.le (w w' : Want T) : Prop := w = .never ∨ w = w'

/-- Whatever has a type in the first surroundings has it in the second, provided its `break`s and `return`s are in
`S`. -/
structure Around.le (S : Kind → Prop) (Γ Γ' : Around T Sc) : Prop where
  targets : ∀ l u, S (.eBreak l) → findTarget Γ.targets l = some u →
    ∃ u', findTarget Γ'.targets l = some u' ∧ Want.le u u'
  ret : S .eReturn → Want.le Γ.ret Γ'.ret
  answer : ∀ q, Γ.answer = some q → Γ'.answer = some q
  here : Γ'.here = Γ.here

theorem Want.le_refl (w : Want T) : Want.le w w := .inr rfl

theorem Around.le_refl (S : Kind → Prop) (Γ : Around T Sc) : Around.le S Γ Γ :=
  ⟨fun _ u _ h => ⟨u, h, .inr rfl⟩, fun _ => .inr rfl, fun _ => id, rfl⟩

theorem Around.le.enter {S : Kind → Prop} {Γ Γ' : Around T Sc} (h : Around.le S Γ Γ') {l : Option String}
    {b : Bool} {u u' : Want T} (hu : Want.le u u') : Around.le S (Γ.enter l b u) (Γ'.enter l b u') := by
  refine ⟨fun x v hS hv => ?_, h.ret, h.answer, h.here⟩
  cases x with
  | none =>
    simp only [Around.enter, findTarget] at hv ⊢
    split at hv
    · cases hv; rw [if_pos (by assumption)]; exact ⟨u', rfl, hu⟩
    · rw [if_neg (by assumption)]; exact h.targets _ _ hS hv
  | some x =>
    simp only [Around.enter, findTarget] at hv ⊢
    split at hv
    · cases hv; rw [if_pos (by assumption)]; exact ⟨u', rfl, hu⟩
    · rw [if_neg (by assumption)]; exact h.targets _ _ hS hv

theorem Around.le.on {S : Kind → Prop} {Γ Γ' : Around T Sc} (h : Around.le S Γ Γ') (t : T) :
    Around.le S (Γ.on t) (Γ'.on t) := ⟨h.targets, h.ret, h.answer, by rw [Around.on, Around.on, h.here]⟩

theorem Around.le.within {S : Kind → Prop} {Γ Γ' : Around T Sc} (h : Around.le S Γ Γ') (s : Sc) :
    Around.le S (Γ.within s) (Γ'.within s) := ⟨h.targets, h.ret, h.answer, by rw [Around.within, Around.within, h.here]⟩

theorem Around.le.before {S : Kind → Prop} {Γ Γ' : Around T Sc} (h : Around.le S Γ Γ') (s : Sc) :
    Around.le S (Γ.before s) (Γ'.before s) := ⟨h.targets, h.ret, h.answer, by rw [Around.before, Around.before, h.here]⟩

theorem Around.le.inside {S : Kind → Prop} {Γ Γ' : Around T Sc} (h : Around.le S Γ Γ') :
    Around.le S Γ.inside Γ'.inside := ⟨h.targets, h.ret, h.answer, by rw [Around.inside, Around.inside, h.here]⟩

theorem leaves_eq {Γ Γ' : Around T Sc} (h : Γ'.here = Γ.here) (s : Sc) : Γ'.leaves s = Γ.leaves s := by
  unfold Around.leaves
  rw [h]

theorem Around.le.withTries {S : Kind → Prop} {Γ Γ' : Around T Sc} (h : Around.le S Γ Γ') (t : T) :
    Around.le S { Γ with tries := some t } { Γ' with tries := some t } := ⟨h.targets, h.ret, fun _ => id, h.here⟩

theorem accepts_le {w w' : Want T} (h : Want.le w w') {t : T} (ha : w.accepts t) : w'.accepts t := by
  rcases h with rfl | rfl
  · exact ha.elim
  · exact ha

/-- Typing respects the order. -/
def Mono (S : Kind → Prop) (d : Judge T Sc) : Prop :=
  ∀ Γ Γ' w w', Around.le S Γ Γ' → Want.le w w' → d Γ w → d Γ' w'

/-- The same for nodes one by one. -/
def MonoL (S : Kind → Prop) (ds : List (Judge T Sc)) : Prop := ∀ d ∈ ds, Mono S d

theorem mono_kid {S : Kind → Prop} {ds : List (Judge T Sc)} (h : MonoL S ds) (i : Nat) : Mono S (kid ds i) := by
  unfold kid
  split
  · rename_i d hd
    exact h d (List.mem_of_getElem? hd)
  · intro _ _ _ _ _ _ h; exact h

theorem mono_each {S : Kind → Prop} {d : Judge T Sc} (h : Mono S d) (t : T) : Mono S (each d) := by
  intro Γ Γ' w w' hΓ hw hd
  rcases hw with rfl | rfl
  · unfold each at hd ⊢
    dsimp only at hd
    split
    · exact ⟨t, h _ _ _ _ hΓ (.inl rfl) hd⟩
    · exact h _ _ _ _ hΓ (.inl rfl) hd
  · unfold each at hd ⊢
    split at hd
    · obtain ⟨u, hu⟩ := hd
      exact ⟨u, h _ _ _ _ hΓ (.inr rfl) hu⟩
    · exact h _ _ _ _ hΓ (.inr rfl) hd

theorem mono_stmts {S : Kind → Prop} : ∀ {ds : List (Judge T Sc)}, MonoL S ds → Mono S (stmts R ds)
  | [], _ => fun _ _ _ _ _ hw hd => accepts_le hw hd
  | [d], h => fun _ _ _ _ hΓ hw hd => h d (by simp) _ _ _ _ hΓ hw hd
  | d :: d' :: ds, h => fun Γ Γ' w w' hΓ hw hd =>
    let ⟨s, h1, h2⟩ := hd
    ⟨s, h d (by simp) _ _ _ _ (hΓ.before s) (.inr rfl) h1,
      mono_stmts (ds := d' :: ds) (fun x hx => h x (by simp [List.mem_cons.mp hx])) _ _ w w' (hΓ.within s) hw h2⟩

theorem mono_kinds {S : Kind → Prop} {Γ Γ' : Around T Sc} (hΓ : Around.le S Γ Γ') :
    ∀ {ds : List (Judge T Sc)} {ts : List T}, MonoL S ds → kinds ds Γ ts → kinds ds Γ' ts
  | [], [], _, _ => trivial
  | d :: ds, t :: ts, h, hd => ⟨h d (by simp) _ _ _ _ hΓ (.inr rfl) hd.1,
      mono_kinds hΓ (fun x hx => h x (by simp [hx])) hd.2⟩
  | [], _ :: _, _, hd => hd.elim
  | _ :: _, [], _, hd => hd.elim

theorem some_holds {w : Want T} {P : T → Prop} (h : w.holds P) : ∃ u, P u := by
  cases w with
  | is t => exact ⟨t, h⟩
  | free => exact h
  | never => exact h.1

theorem holds_imp {w : Want T} {P P' : T → Prop} (hp : ∀ u, P u → P' u) (h : w.holds P) : w.holds P' := by
  cases w with
  | is t => exact hp _ h
  | free => exact h.elim fun u h => ⟨u, hp _ h⟩
  | never => exact ⟨h.1.elim fun u h => ⟨u, hp _ h⟩, fun u => hp _ (h.2 u)⟩

theorem holds_le {w w' : Want T} (h : Want.le w w') {P : T → Prop} (hp : w.holds P) : w'.holds P := by
  rcases h with rfl | rfl
  · cases w' with
    | is t => exact hp.2 t
    | free => exact hp.1
    | never => exact hp
  · exact hp

theorem mono_other {S : Kind → Prop} {k : Kind} {ds : List (Judge T Sc)} (h : MonoL S ds) :
    Mono S (other R k ds) := by
  rintro Γ Γ' w w' hΓ hw ⟨ts, h1, h2⟩
  exact ⟨ts, mono_kinds hΓ h h1, by rw [hΓ.here]; exact holds_le hw h2⟩

theorem mono_freeze {S : Kind → Prop} {k : Kind} {ks : List Node} : Mono S (freeze R k ks) := by
  rintro Γ Γ' w w' hΓ hw ⟨u, h1, h2⟩
  exact ⟨u, by rw [hΓ.here]; exact h1, accepts_le hw h2⟩

theorem mono_confine {S : Kind → Prop} {k : Kind} {d : Judge T Sc} (h : Mono S d) : Mono S (confine k d) := by
  intro Γ Γ' w w' hΓ hw hd
  unfold confine at hd ⊢
  split
  · rw [if_pos (by assumption)] at hd
    exact h _ _ _ _ hΓ hw hd
  · rw [if_neg (by assumption)] at hd
    rw [leaves_eq hΓ.here, hΓ.here]
    exact ⟨hd.1, h _ _ _ _ hΓ.inside hw hd.2⟩

/-- Nodes whose type is up to the rules. -/
def isSimple : Kind → Bool
  | .eLet _ | .eBinary _ => false
  | k => isOther k

theorem isSimple_other {k : Kind} (h : isSimple k = true) : isOther k = true := by
  cases k <;> first | exact h | cases h

theorem mono_value {S : Kind → Prop} {ds : List (Judge T Sc)} (h : MonoL S ds) {Γ Γ' : Around T Sc}
    {u u' : Want T} (hΓ : Around.le S Γ Γ') (hu : Want.le u u') (hv : value R ds Γ u) : value R ds Γ' u' := by
  unfold value at hv ⊢
  split
  · rw [if_pos (by assumption)] at hv
    exact accepts_le hu hv
  · rw [if_neg (by assumption)] at hv
    exact mono_each (mono_kid h 0) R.unit _ _ _ _ hΓ hu hv

theorem mono_node {S : Kind → Prop} {k : Kind} {ks : List Node} {ds : List (Judge T Sc)} (h : MonoL S ds)
    (hS : S k) : Mono S (node R G k ks ds) := by
  intro Γ Γ' w w' hΓ hw hd
  have hk := fun i => mono_kid h i
  by_cases hoth : isSimple k = true
  · have : ∀ Γ w, node R G k ks ds Γ w = other R k ds Γ w := by
      intro Γ w; cases k <;> first | rfl | cases hoth
    rw [this] at hd ⊢
    exact mono_other h _ _ _ _ hΓ hw hd
  cases k <;> try (exact absurd rfl hoth)
  case block => exact mono_stmts h _ _ _ _ hΓ hw hd
  case eUnsafe => exact mono_stmts h _ _ _ _ hΓ hw hd
  case eConst => exact mono_stmts h _ _ _ _ hΓ hw hd
  case eBlock l =>
    cases l with
    | none => exact mono_stmts h _ _ _ _ hΓ hw hd
    | some l => exact mono_stmts h _ _ _ _ (hΓ.enter hw) hw hd
  case sExpr semi =>
    cases semi with
    | false => exact hk 0 _ _ _ _ hΓ hw hd
    | true =>
      rcases hd with hd | ⟨⟨t, hd⟩, ha⟩
      · exact .inl (hk 0 _ _ _ _ hΓ (.inr rfl) hd)
      · exact .inr ⟨⟨t, hk 0 _ _ _ _ hΓ (.inr rfl) hd⟩, accepts_le hw ha⟩
  case eParen => exact hk 0 _ _ _ _ hΓ hw hd
  case eGroup => exact hk 0 _ _ _ _ hΓ hw hd
  case sLocal p =>
    obtain ⟨t, s, h1, h2, h3⟩ := hd
    refine ⟨t, s, by rw [hΓ.here]; exact h1, by rw [leaves_eq hΓ.here]; exact h2, ?_⟩
    cases ds with
    | nil => exact accepts_le hw h3
    | cons d els =>
      obtain ⟨h3, h4, h5⟩ := h3
      have hd := h d (by simp)
      exact ⟨hd _ _ _ _ hΓ.inside (.inr rfl) h3,
        fun e he => h e (by simp [he]) _ _ _ _ hΓ.inside (.inr rfl) (h4 e he),
        h5.imp (hd _ _ _ _ hΓ.inside (.inr rfl)) (accepts_le hw)⟩
  case eLet p =>
    obtain ⟨t, s, h1, h2, h3, h4⟩ := hd
    exact ⟨t, s, hk 0 _ _ _ _ hΓ.inside (.inr rfl) h1, by rw [hΓ.here]; exact h2,
      by rw [leaves_eq hΓ.here]; exact h3, accepts_le hw h4⟩
  case eBinary op =>
    simp only [node] at hd ⊢
    split
    · rw [if_pos (by assumption)] at hd
      obtain ⟨s, h1, h2, h3⟩ := hd
      exact ⟨s, hk 0 _ _ _ _ (hΓ.before s) (.inr rfl) h1, hk 1 _ _ _ _ (hΓ.within s) (.inr rfl) h2, accepts_le hw h3⟩
    · rw [if_neg (by assumption)] at hd
      exact mono_other h _ _ _ _ hΓ hw hd
  case sItem => exact accepts_le hw hd
  case eMatch =>
    obtain ⟨t, h1, h2⟩ := hd
    exact ⟨t, hk 0 _ _ _ _ hΓ (.inr rfl) h1,
      fun d hd => mono_each (h d (List.mem_of_mem_tail hd)) R.unit _ _ _ _ (hΓ.on t) hw (h2 d hd)⟩
  case arm p =>
    obtain ⟨s, h1, h2⟩ := hd
    refine ⟨s, by rw [hΓ.here]; exact h1, ?_⟩
    revert h2
    split
    · exact h _ (by simp) _ _ _ _ (hΓ.within s) hw
    · exact fun ⟨s', h2, h3⟩ => ⟨s', h _ (by simp) _ _ _ _ ((hΓ.within s).before s') (.inr rfl) h2,
        h _ (by simp) _ _ _ _ (hΓ.within s') hw h3⟩
    · exact id
  case eIf =>
    obtain ⟨s, h1, hd⟩ := hd
    refine ⟨s, hk 0 _ _ _ _ (hΓ.before s) (.inr rfl) h1, ?_⟩
    revert hd
    split
    · exact fun h2 => ⟨h _ (by simp) _ _ _ _ (hΓ.within s) (.inr rfl) h2.1, accepts_le hw h2.2⟩
    · refine fun h2 => ⟨mono_each (h _ (by simp)) R.unit _ _ _ _ (hΓ.within s) hw h2.1, ?_⟩
      have h3 := h2.2
      split
      · rw [if_pos (by assumption)] at h3
        exact h _ (by simp) _ _ _ _ hΓ hw h3
      · rw [if_neg (by assumption)] at h3
        exact mono_each (h _ (by simp)) R.unit _ _ _ _ hΓ hw h3
    · exact id
  case eLoop l => exact hk 0 _ _ _ _ (hΓ.enter hw) (.inr rfl) hd
  case eWhile l =>
    obtain ⟨s, h1, h2, h3⟩ := hd
    exact ⟨s, hk 0 _ _ _ _ ((hΓ.enter (.inr rfl)).before s) (.inr rfl) h1,
      hk 1 _ _ _ _ ((hΓ.enter (.inr rfl)).within s) (.inr rfl) h2, accepts_le hw h3⟩
  case eForLoop l p =>
    obtain ⟨t, s, h1, h2, h3, h4⟩ := hd
    exact ⟨t, s, hk 0 _ _ _ _ hΓ (.inr rfl) h1, by rw [hΓ.here]; exact h2,
      hk 1 _ _ _ _ ((hΓ.enter (.inr rfl)).within s) (.inr rfl) h3, accepts_le hw h4⟩
  case eBreak l =>
    obtain ⟨u, h1, h2⟩ := hd
    obtain ⟨u', h3, h4⟩ := hΓ.targets l u hS h1
    exact ⟨u', h3, mono_value h hΓ h4 h2⟩
  case eContinue => trivial
  case eReturn =>
    simp only [node] at hd ⊢
    exact mono_value h hΓ (hΓ.ret hS) hd
  case eTry =>
    obtain ⟨t, q, h1, h2, h3⟩ := hd
    exact ⟨t, q, hk 0 _ _ _ _ hΓ (.inr rfl) h1, hΓ.answer _ h2, holds_le hw h3⟩
  case eTryBlock =>
    obtain ⟨t, u, h1, h2, h3⟩ := hd
    exact ⟨t, u, mono_stmts h _ _ _ _ (hΓ.withTries u) (.inr rfl) h1, by rw [hΓ.here]; exact h2, accepts_le hw h3⟩
  case eMacro p t =>
    simp only [node] at hd ⊢
    split
    · trivial
    · rw [if_neg (by assumption)] at hd
      exact mono_freeze _ _ _ _ hΓ hw hd
  case sMacro p t =>
    simp only [node] at hd ⊢
    split
    · trivial
    · rw [if_neg (by assumption)] at hd
      exact mono_freeze _ _ _ _ hΓ hw hd
  case eClosure => exact mono_freeze _ _ _ _ hΓ hw hd
  case eAsync => exact mono_freeze _ _ _ _ hΓ hw hd
  case eVerbatim => exact mono_freeze _ _ _ _ hΓ hw hd
  case eTuple =>
    simp only [node] at hd ⊢
    split
    · rw [if_pos (by assumption)] at hd
      exact accepts_le hw hd
    · rw [if_neg (by assumption)] at hd
      exact mono_other h _ _ _ _ hΓ hw hd
  case ePath q p =>
    simp only [node] at hd ⊢
    split
    · rw [if_pos (by assumption)] at hd
      exact hd
    · rw [if_neg (by assumption)] at hd
      exact mono_other h _ _ _ _ hΓ hw hd
  case eCall =>
    revert hd
    simp only [node]
    split
    · rintro ⟨t, h1, h2, h3⟩
      exact ⟨t, hk 1 _ _ _ _ hΓ (.inr rfl) h1, h2, accepts_le hw h3⟩
    · exact mono_other h _ _ _ _ hΓ hw
  case eMethodCall => exact mono_other h _ _ _ _ hΓ hw hd

theorem mem_typedL : ∀ {l : List Node} {d : Judge T Sc}, d ∈ typedL R G l → ∃ n ∈ l, d = typed R G n
  | [], _, h => by cases h
  | n :: l, d, h => by
    rw [typedL, List.mem_cons] at h
    rcases h with rfl | h
    · exact ⟨n, by simp, rfl⟩
    · obtain ⟨n', h1, h2⟩ := mem_typedL h
      exact ⟨n', by simp [h1], h2⟩

/-- Typing of a node depends on the targets of its `break`s and `return`s only, and diverging code has every type. -/
theorem typed_mono : ∀ n : Node, Mono (fun k => ∃ x ∈ visible n, x.1 = k) (typed R G n) := by
  refine Node.ind (P := fun n => Mono (fun k => ∃ x ∈ visible n, x.1 = k) (typed R G n)) ?_
  intro k as ks ih
  rw [typed]
  refine mono_confine ?_
  by_cases hh : hidesCode k = true
  · intro Γ Γ' w w' hΓ hw hd
    have : (∃ p t, k = .eMacro p t) ∨ (∃ p t, k = .sMacro p t) ∨ (∃ t, k = .eVerbatim t) ∨ ∃ i, k = .sItem i := by
      cases k <;> first | (cases hh; done) | simp
    rcases this with ⟨p, t, rfl⟩ | ⟨p, t, rfl⟩ | ⟨t, rfl⟩ | ⟨i, rfl⟩
    · simp only [node] at hd ⊢
      split
      · trivial
      · rw [if_neg (by assumption)] at hd
        exact mono_freeze _ _ _ _ hΓ hw hd
    · simp only [node] at hd ⊢
      split
      · trivial
      · rw [if_neg (by assumption)] at hd
        exact mono_freeze _ _ _ _ hΓ hw hd
    · exact mono_freeze _ _ _ _ hΓ hw hd
    · exact accepts_le hw hd
  · refine mono_node (fun d hd => ?_) ⟨_, by rw [visible]; exact List.mem_cons_self, rfl⟩
    obtain ⟨n, hn, rfl⟩ := mem_typedL hd
    intro Γ Γ' w w' hΓ hw hd
    have hv : ∀ k', (∃ x ∈ visible n, x.1 = k') → ∃ x ∈ visible (.mk k as ks), x.1 = k' := by
      rintro k' ⟨x, hx, hl⟩
      refine ⟨x, ?_, hl⟩
      rw [visible, if_neg hh]
      exact List.mem_cons_of_mem _ (visibleL_mem hn hx)
    exact ih n hn Γ Γ' w w' ⟨fun l u hS => hΓ.targets l u (hv _ hS), fun hS => hΓ.ret (hv _ hS), hΓ.answer, hΓ.here⟩
      hw hd

theorem typed_never {n : Node} {Γ : Around T Sc} (h : typed R G n Γ .never) (w : Want T) : typed R G n Γ w :=
  typed_mono n _ _ _ _ (Around.le_refl _ Γ) (.inl rfl) h

end

end AutoEnums
