import Verif.Spec.EvalMark
import Verif.Lemmas.EvalSim

/-! # Lemmas: the treatment of code with markers and `#[nested]` keeps its meaning -/

namespace AutoEnums

open Spec

section

variable {B S : Type} {M : Machine B S} {vs : List Ident}

open Eval

theorem someWrapped_none {J : Job} {sel : Nat → Bool} {rs : Nat → Role} : ∀ {ks : List Node},
    (∀ i, i < ks.length → sel i = false) → someWrapped J sel rs ks = false := by
  intro ks
  induction ks generalizing sel rs with
  | nil => intro _; rfl
  | cons n ns ih =>
    intro h
    rw [someWrapped, h 0 (by simp), ih fun i hi => h (i + 1) (by simpa using hi)]
    rfl

/-- A list of kids none of which is wrapped. -/
theorem unwrapped_kids {bs : Nat → Bool} {tss : Nat → List Target} {ret : Bool}
    {ds ds' : List (Den B S)} (h : SimL (KidsWrap vs B bs tss ret) ds ds') {ts' : List Target}
    (h1 : ∀ i, bs i = false) (h2 : ∀ i, tss i = ts') :
    SimL (KidsWrap vs B (fun _ => false) (fun _ => ts') ret) ds ds' := by
  refine h.imp fun i o o' _ ho => ?_
  simp only [KidsWrap, h1, h2] at ho
  exact ho

theorem one_target {bs : Nat → Bool} {tss : Nat → List Target} {ret : Bool}
    {ds ds' : List (Den B S)} (h : SimL (KidsWrap vs B bs tss ret) ds ds') {ts' : List Target}
    (h2 : ∀ i, tss i = ts') : SimL (KidsWrap vs B bs (fun _ => ts') ret) ds ds' := by
  refine h.imp fun i o o' _ ho => ?_
  simp only [KidsWrap, h2] at ho
  exact ho

theorem tails_other {k : Kind} (h : isOther k = true) (n i : Nat) : isTail k n i = false ∧ isDropped k n i = false := by
  cases k <;> first | exact ⟨rfl, rfl⟩ | (cases h; done)

/-- A node that stays what it is. -/
theorem node_stays {J : Job} {ts : List Target} {r : Role} {t : Bool} {k : Kind} {as : List Attr}
    {ks ku ks' : List Node} {ds ds' : List (Den B S)} {f : Nat} {bs : Nat → Bool}
    (hw : wrappable r k ks = true)
    (ht : t = (r != .plain || someWrapped J (fun i => isTail k ks.length i)
      (fun i => kidRole r k as ks.length i) ks))
    (hret : k = .eReturn → (ks = [] → J.returns = false) ∧ bs 0 = J.returns)
    (hbrk : ∀ l, k = .eBreak l → (ks = [] → hits (through ts k as) l = false) ∧ bs 0 = hits (through ts k as) l)
    (harm : (∃ p, k = .arm p) ∨ k = .block ∨ k = .eBlock none → r ≠ .branch)
    (hbs : (∀ l, k ≠ .eBreak l) → k ≠ .eReturn → ∀ i, isDropped k ks.length i = false →
      bs i = (isTail k ks.length i && t))
    (hlen : ds.length = ks.length)
    (hk : hidesCode k = false → isFrozen k = false →
      SimL (KidsWrap vs B bs (fun i => kidTargets ts r k as i) J.returns) ds ds')
    (hfr : hidesCode k = true ∨ isFrozen k = true → noAttrsL ks' = noAttrsL ku)
    (hcon : k = .eCall → constructor M J.en ks' = constructor M J.en ku) :
    Sim (Wraps vs t (through ts k as) J.returns)
      (node M J.en f k ku ds) (node M J.en f k ks' ds') := by
  intro x s
  have hnone : (∀ i, isTail k ks.length i = false) → r = .plain → t = false := by
    intro h1 h2
    rw [ht, h2, someWrapped_none fun i _ => h1 i]
    rfl
  by_cases hoth : isOther k = true
  · have hr := role_other hoth hw
    subst hr
    rw [node_other hoth, node_other hoth]
    have h1 := tails_other hoth
    rw [hnone (fun i => (h1 _ i).1) rfl]
    have h2 := (kids_other (ts := ts) (as := as) (n := ks.length) hoth).2
    refine agree_other (unwrapped_kids (hk ?_ ?_) ?_ (h2 _)) f [] s
    · cases k <;> first | rfl | cases hoth
    · cases k <;> first | rfl | cases hoth
    · intro i
      rw [hbs ?_ ?_ i (h1 _ i).2, (h1 _ i).1]
      · rfl
      · rintro l rfl; cases hoth
      · rintro rfl; cases hoth
  -- nodes that are not wrapped and drop nothing
  have hpl : ∀ ts', hidesCode k = false → isFrozen k = false → r = .plain → (∀ l, k ≠ .eBreak l) → k ≠ .eReturn →
      (∀ i, isTail k ks.length i = false) → (∀ i, isDropped k ks.length i = false) →
      (∀ i, kidTargets ts r k as i = ts') → t = false ∧
      SimL (KidsWrap vs B (fun _ => false) (fun _ => ts') J.returns) ds ds' := by
    intro ts' h1 h2 h3 h4 h5 h6 h7 h8
    refine ⟨hnone h6 h3, unwrapped_kids (hk h1 h2) (fun i => ?_) h8⟩
    rw [hbs h4 h5 i (h7 i), h6]
    rfl
  cases k <;> try (exact absurd rfl hoth)
  case eAsync =>
    cases r <;> try (cases hw; done)
    rw [hnone (fun _ => rfl) rfl]
    exact agree_freeze (hfr (.inr rfl))
  case eClosure =>
    cases r <;> try (cases hw; done)
    rw [hnone (fun _ => rfl) rfl]
    exact agree_freeze (hfr (.inr rfl))
  case eVerbatim =>
    cases r <;> try (cases hw; done)
    rw [hnone (fun _ => rfl) rfl]
    exact agree_freeze (hfr (.inl rfl))
  case eMacro =>
    cases r <;> try (cases hw; done)
    rw [hnone (fun _ => rfl) rfl]
    simp only [node]
    split
    · exact agree_panic
    · exact agree_freeze (hfr (.inl rfl))
  case sMacro =>
    cases r <;> try (cases hw; done)
    rw [hnone (fun _ => rfl) rfl]
    simp only [node]
    split
    · exact agree_panic
    · exact agree_freeze (hfr (.inl rfl))
  case sItem =>
    cases r <;> try (cases hw; done)
    rw [hnone (fun _ => rfl) rfl]
    exact agree_val (wrappedIf_false.mpr rfl)
  case eContinue =>
    cases r <;> try (cases hw; done)
    exact ⟨rfl, rfl⟩
  case eCall =>
    cases r <;> try (cases hw; done)
    obtain ⟨h0, hp⟩ := hpl _ rfl rfl rfl (by simp) (by simp) (fun _ => rfl) (fun _ => rfl) (fun _ => rfl)
    rw [h0]
    simp only [node]
    rw [hcon rfl]
    split
    · refine agree_andThen (agree_kid' hp 1 s) fun v v' s hv => ?_
      rw [wrappedIf_false.mp hv]
      exact agree_val (wrappedIf_false.mpr rfl)
    · exact agree_other hp f [] s
  case ePath q p =>
    cases r <;> try (cases hw; done)
    obtain ⟨h0, hp⟩ := hpl _ rfl rfl rfl (by simp) (by simp) (fun _ => rfl) (fun _ => rfl) (fun _ => rfl)
    rw [h0]
    simp only [node]
    split
    · exact agree_val (wrappedIf_false.mpr rfl)
    · exact agree_other hp f [] s
  case eTuple =>
    cases r <;> try (cases hw; done)
    obtain ⟨h0, hp⟩ := hpl _ rfl rfl rfl (by simp) (by simp) (fun _ => rfl) (fun _ => rfl) (fun _ => rfl)
    rw [h0]
    simp only [node]
    rw [hp.isEmpty]
    split
    · exact agree_val (wrappedIf_false.mpr rfl)
    · exact agree_other hp f [] s
  case eTry =>
    cases r <;> try (cases hw; done)
    obtain ⟨h0, hp⟩ := hpl _ rfl rfl rfl (by simp) (by simp) (fun _ => rfl) (fun _ => rfl) (fun _ => rfl)
    rw [h0]
    simp only [node]
    refine agree_andThen (agree_kid' hp 0 s) fun v v' s hv => ?_
    rw [wrappedIf_false.mp hv]
    split
    · exact ⟨rfl, rfl⟩
    · cases M.step .eTry [v] s with
      | done v s => exact agree_val (wrappedIf_false.mpr rfl)
      | kid i s => exact agree_panic
      | panic s => exact agree_panic
  case eTryBlock =>
    cases r <;> try (cases hw; done)
    rw [hnone (fun _ => rfl) rfl]
    have h1 := agree_stmts (M := M) (one_target (hk rfl rfl) fun _ => rfl) (b := false) (fun i hi => by
      rw [hbs (by simp) (by simp) i (by simp [isDropped, ← hlen, hi])]; rfl) (fun _ => rfl) s
    simp only [node]
    revert h1
    generalize stmts M ds s = a
    generalize stmts M ds' s = a'
    intro h1
    rcases a with _ | ⟨o, s⟩ <;> rcases a' with _ | ⟨o', s'⟩ <;> try (cases h1; done)
    · trivial
    · obtain ⟨rfl, h1⟩ := h1
      cases o <;> cases o' <;> try (first | exact h1.elim | exact ⟨rfl, h1⟩)
      · rw [wrappedIf_false.mp h1]; exact agree_val (wrappedIf_false.mpr rfl)
      · rw [show _ = _ from h1]; exact agree_val (wrappedIf_false.mpr rfl)
  case eReturn =>
    cases r <;> try (cases hw; done)
    obtain ⟨h1, h2⟩ := hret rfl
    have hp := hk rfl rfl
    simp only [node]
    rw [hp.isEmpty]
    split
    · rename_i he
      rw [h1 (by rw [List.isEmpty_iff] at he; subst he; simpa using hlen.symm)]
      exact ⟨rfl, wrappedIf_false.mpr rfl⟩
    · refine agree_andThen (agree_kid' hp 0 s) fun v v' s hv => ?_
      rw [h2] at hv
      exact ⟨rfl, hv⟩
  case eBreak l =>
    cases r <;> try (cases hw; done)
    obtain ⟨h1, h2⟩ := hbrk l rfl
    have hp := hk rfl rfl
    simp only [node]
    rw [hp.isEmpty]
    split
    · rename_i he
      refine ⟨rfl, rfl, ?_⟩
      rw [h1 (by rw [List.isEmpty_iff] at he; subst he; simpa using hlen.symm)]
      exact wrappedIf_false.mpr rfl
    · refine agree_andThen (agree_kid' hp 0 s) fun v v' s hv => ?_
      rw [h2] at hv
      exact ⟨rfl, rfl, hv⟩
  case eConst =>
    cases r <;> try (cases hw; done)
    rw [hnone (fun _ => rfl) rfl]
    exact agree_stmts (M := M) (one_target (hk rfl rfl) fun _ => rfl) (b := false) (fun i hi => by
      rw [hbs (by simp) (by simp) i (by simp [isDropped, ← hlen, hi])]; rfl) (fun _ => rfl) s
  case block =>
    refine agree_stmts (M := M) (one_target (hk rfl rfl) fun _ => rfl) (b := t) (fun i hi => by
      rw [hbs (by simp) (by simp) i (by simp [isDropped, ← hlen, hi])]; simp [isTail, ← hlen, hi]) (fun h => ?_) s
    subst h
    cases ks with
    | cons => cases hlen
    | nil =>
      cases r <;> try (cases hw; done)
      · exact ht
      · exact absurd rfl (harm (.inr (.inl rfl)))
  case eUnsafe =>
    refine agree_stmts (M := M) (one_target (hk rfl rfl) fun _ => rfl) (b := t) (fun i hi => by
      rw [hbs (by simp) (by simp) i (by simp [isDropped, ← hlen, hi])]; simp [isTail, ← hlen, hi]) (fun h => ?_) s
    subst h
    cases ks with
    | cons => cases hlen
    | nil =>
      cases r <;> try (cases hw; done)
      exact ht
  case eBlock l =>
    cases l with
    | none =>
      simp only [node, labelled_none]
      refine agree_stmts (M := M) (one_target (hk rfl rfl) fun _ => rfl) (b := t) (fun i hi => by
        rw [hbs (by simp) (by simp) i (by simp [isDropped, ← hlen, hi])]; simp [isTail, ← hlen, hi]) (fun h => ?_) s
      subst h
      cases ks with
      | cons => cases hlen
      | nil =>
        cases r <;> try (cases hw; done)
        · exact ht
        · exact absurd rfl (harm (.inr (.inr rfl)))
    | some l =>
      cases r <;> try (cases hw; done)
      rw [hnone (fun _ => rfl) rfl]
      refine agree_labelled (agree_stmts (M := M) (one_target (hk rfl rfl) fun _ => rfl) (b := false) (fun i hi => by
        rw [hbs (by simp) (by simp) i (by simp [isDropped, ← hlen, hi])]; rfl) (fun _ => rfl) s)
  case eGroup =>
    have := agree_kid' (M := M) (hk rfl rfl) 0 s
    rw [hbs (by simp) (by simp) 0 rfl] at this
    exact this
  case eParen =>
    have := agree_kid' (M := M) (hk rfl rfl) 0 s
    rw [hbs (by simp) (by simp) 0 rfl] at this
    exact this
  case sExpr semi =>
    have h0 := agree_kid' (M := M) (hk rfl rfl) 0 s
    cases semi
    · rw [hbs (by simp) (by simp) 0 rfl] at h0
      exact h0
    · cases r <;> try (cases hw; done)
      rw [hnone (fun _ => rfl) rfl]
      exact agree_discard h0
  case sLocal p =>
    cases r <;> try (cases hw; done)
    obtain ⟨h0, hp⟩ := hpl _ rfl rfl rfl (by simp) (by simp) (fun _ => rfl) (fun _ => rfl) (fun _ => rfl)
    rw [h0]
    exact agree_discard (agree_first hp f s)
  case eMethodCall m =>
    cases r <;> try (cases hw; done)
    obtain ⟨h0, hp⟩ := hpl _ rfl rfl rfl (by simp) (by simp) (fun _ => rfl) (fun _ => rfl) (fun _ => rfl)
    rw [h0]
    exact agree_first hp f s
  case eMatch =>
    have h := one_target (hk rfl rfl) fun _ => rfl
    have hb := hbs (by simp) (by simp)
    have h0 := agree_kid' (M := M) h 0 s
    rw [hb 0 rfl] at h0
    simp only [node]
    refine agree_andThen (b := false) h0 fun v v' s hv => ?_
    rw [wrappedIf_false.mp hv]
    cases h with
    | nil => exact agree_panic
    | cons _ h =>
      refine agree_arms (h.imp fun i o o' _ ho => ?_) s
      simp only [KidsWrap] at ho
      rw [hb (i + 1) rfl] at ho
      exact ho
  case arm p =>
    have h := one_target (hk rfl rfl) fun _ => rfl
    have hb := fun i => hbs (by simp) (by simp) i rfl
    simp only [node]
    unfold arm
    dsimp only
    split
    · cases h with
      | nil => exact agree_panic
      | cons h1 h2 => cases h2 with
        | nil =>
          have := h1 (unit M) (M.test p x s).2
          simp only [KidsWrap, hb 0, isTail, ← hlen] at this
          exact this
        | cons h3 h4 => cases h4 with
          | nil =>
            have h1 := h1 (unit M) (M.test p x s).2
            simp only [KidsWrap, hb 0, isTail, ← hlen] at h1
            refine agree_andThen (b := false) h1 fun v v' s hv => ?_
            rw [wrappedIf_false.mp hv]
            split
            · have := h3 (unit M) s
              simp only [KidsWrap, hb, isTail, ← hlen] at this
              exact this
            · exact ⟨rfl, trivial⟩
          | cons => exact agree_panic
    · exact ⟨rfl, trivial⟩
  case eIf =>
    have h := one_target (hk rfl rfl) fun _ => rfl
    have hb := fun i => hbs (by simp) (by simp) i rfl
    have hkid := fun i s => agree_kid' (M := M) h i s
    simp only [hb, isTail] at hkid
    have h0 := hkid 0
    have h1 := hkid 1
    have h2 := hkid 2
    simp only [bne_self_eq_false, Bool.and_false, Bool.false_and] at h0 h1 h2
    simp only [node]
    unfold Eval.cond
    refine agree_andThen (b := false) (h0 s) fun v v' s hv => ?_
    rw [wrappedIf_false.mp hv, h.length]
    by_cases h3 : ks.length = 3
    · simp only [h3] at h1 h2
      rw [hlen, h3]
      split
      · exact h1 s
      · exact h2 s
    · have ht0 : t = false := by
        refine hnone (fun i => by simp [isTail, h3]) ?_
        cases r <;> first | rfl | (simp [wrappable, h3] at hw)
      subst ht0
      simp only [Bool.and_false] at h1 h2
      split
      · exact h1 s
      · split
        · exact agree_val (wrappedIf_false.mpr rfl)
        · exact h2 s
  case eLoop l =>
    have h0 := fun s => agree_kid' (M := M) (hk rfl rfl) 0 s
    simp only [node]
    have : t = decide (r = .result) := by
      cases r <;> try (cases hw; done)
      · exact hnone (fun _ => rfl) rfl
      · rw [ht]; rfl
    rw [this]
    exact agree_loop h0 f s
  case eWhile l =>
    have hkid := fun i s => agree_kid' (M := M) (hk rfl rfl) i s
    cases r <;> try (cases hw; done)
    rw [hnone (fun _ => rfl) rfl]
    have h0 := hkid 0
    rw [hbs (by simp) (by simp) 0 rfl] at h0
    exact agree_while h0 (hkid 1) f s
  case eForLoop l p =>
    have hkid := fun i s => agree_kid' (M := M) (hk rfl rfl) i s
    cases r <;> try (cases hw; done)
    rw [hnone (fun _ => rfl) rfl]
    simp only [node]
    have h0 := hkid 0 s
    rw [hbs (by simp) (by simp) 0 rfl] at h0
    refine agree_andThen (b := false) h0 fun v v' s hv => ?_
    rw [wrappedIf_false.mp hv]
    exact agree_for (hkid 1) f s

/-! ## The code with its markers removed -/

theorem withoutMarkersL_map (m : String) : ∀ l : List Node, withoutMarkersL m l = l.map (withoutMarkers m)
  | [] => rfl
  | a :: l => by rw [withoutMarkersL, withoutMarkersL_map m l]; rfl

/-- Code without markers stays what it is. -/
theorem unmarked_id {m : String} : ∀ n : Node, (∀ l ∈ visible n, callsMacro m l.1 = false) → withoutMarkers m n = n := by
  refine Node.ind (P := fun n => (∀ l ∈ visible n, callsMacro m l.1 = false) → withoutMarkers m n = n) ?_
  intro k as ks ih h
  rw [visible] at h
  have h0 := h (k, as) List.mem_cons_self
  simp only at h0
  rw [withoutMarkers, h0]
  simp only [Bool.false_and, Bool.false_eq_true, if_false]
  split
  · rfl
  · rename_i hk
    have : ∀ l : List Node, (∀ c ∈ l, c ∈ ks) → withoutMarkersL m l = l := by
      intro l
      induction l with
      | nil => intro _; rfl
      | cons a l ihl =>
        intro hm
        rw [withoutMarkersL, ihl fun c hc => hm c (List.mem_cons_of_mem _ hc), ih a (hm a List.mem_cons_self)]
        intro x hx
        refine h x (List.mem_cons_of_mem _ ?_)
        rw [if_neg hk]
        exact visibleL_mem (hm a List.mem_cons_self) hx
    rw [this ks fun _ h => h]

theorem callsMacro_iff {m : String} {k : Kind} :
    callsMacro m k = true ↔ ∃ t, k = .eMacro ⟨false, [⟨m, none⟩]⟩ t := by
  unfold callsMacro
  split
  · simp
  · rename_i h
    constructor
    · intro h'; cases h'
    · rintro ⟨t, rfl⟩; exact absurd rfl (h _ _)

/-- Frozen code keeps its macro calls. -/
theorem withoutMarkersL_inert {J : Job} {k : Kind} {ks : List Node} (h : inertCode J k ks) :
    withoutMarkersL J.marker ks = ks := by
  have : ∀ l : List Node, (∀ c ∈ l, c ∈ ks) → withoutMarkersL J.marker l = l := by
    intro l
    induction l with
    | nil => intro _; rfl
    | cons a l ihl =>
      intro hm
      rw [withoutMarkersL, ihl fun c hc => hm c (List.mem_cons_of_mem _ hc), unmarked_id a]
      intro x hx
      have := h.1 x (visibleL_mem (hm a List.mem_cons_self) hx)
      cases hc : callsMacro J.marker x.1
      · rfl
      · obtain ⟨t, ht⟩ := callsMacro_iff.mp hc
        exact absurd rfl (this _ _ ht)
  exact this ks fun _ h => h

theorem withoutMarkersL_length (m : String) (l : List Node) : (withoutMarkersL m l).length = l.length := by
  rw [withoutMarkersL_map, List.length_map]

/-- The callee of a call is a constructor before if and only if it is one after. -/
theorem callee_kept {J : Job} (hJ : J.tries = false) {w : Where} {ts : List Target} {r : Role} {n n' : Node}
    (hc : ctors J.en n = 0) (h : Alike J.en n' (treat J w ts r n)) :
    callee M J.en n'.kind = callee M J.en (withoutMarkers J.marker n).kind := by
  obtain ⟨k, as, ks⟩ := n
  by_cases hm : callsMacro J.marker k = true ∧ ks.length = 1
  · obtain ⟨h1, h2⟩ := hm
    obtain ⟨t, rfl⟩ := callsMacro_iff.mp h1
    obtain ⟨e, rfl⟩ : ∃ e, ks = [e] := by
      match ks, h2 with
      | [e], _ => exact ⟨e, rfl⟩
    rw [treat.eq_def] at h
    simp only [assemble, if_true] at h
    obtain ⟨v, y, rfl, -⟩ := ctor_inv h
    rw [withoutMarkers, h1]
    rfl
  · have h1 : (withoutMarkers J.marker (.mk k as ks)).kind = k := by
      rw [withoutMarkers, if_neg (by simpa using hm)]
      rfl
    rw [h1]
    have h2 : (treat J w ts r (.mk k as ks)).kind = k := by
      rw [treat.eq_def]
      unfold assemble
      dsimp only
      split
      · split <;> rfl
      · split <;> rfl
      · split
        · rw [hJ]; rfl
        · rfl
      · split
        · rw [if_neg]
          · rfl
          · rintro rfl
            exact hm ⟨callsMacro_iff.mpr ⟨_, rfl⟩, rfl⟩
        · rfl
      all_goals rfl
    revert h2 h
    generalize treat J w ts r (.mk k as ks) = t
    obtain ⟨tk, tas, tks⟩ := t
    intro h hk
    simp only [Node.kind] at hk
    subst hk
    obtain ⟨k', l', rfl, h3, _⟩ := h.inv
    simp only [ctors, weigh_mk] at hc
    rw [kind_of_blur (as := as) (by omega) h3]
    rfl

theorem constructor_kept {J : Job} (hJ : J.tries = false) {w : Where} {ts : Nat → List Target}
    {rs : Nat → Role} {ks ks' : List Node} (hc : weighL (isCtor J.en) ks = 0)
    (h : AlikeL J.en ks' (treatL J w ts rs ks)) :
    constructor M J.en ks' = constructor M J.en (withoutMarkersL J.marker ks) := by
  match ks with
  | [] => rw [alikeL_nil h]; rfl
  | [a] =>
    simp only [treatL] at h
    obtain ⟨a', m, rfl, h1, h2⟩ := alikeL_inv h
    rw [alikeL_nil h2]; rfl
  | [a, b] =>
    simp only [treatL] at h
    obtain ⟨a', m, rfl, h1, h2⟩ := alikeL_inv h
    obtain ⟨b', m, rfl, h3, h4⟩ := alikeL_inv h2
    rw [alikeL_nil h4]
    rw [weighL_cons] at hc
    simp only [constructor, withoutMarkersL]
    exact callee_kept hJ (by simp only [ctors]; omega) h1
  | a :: b :: c :: l =>
    simp only [treatL] at h
    obtain ⟨a', m, rfl, h1, h2⟩ := alikeL_inv h
    obtain ⟨b', m, rfl, h3, h4⟩ := alikeL_inv h2
    obtain ⟨c', m, rfl, h5, h6⟩ := alikeL_inv h4
    rfl

/-- Code that never completes can be taken for wrapped and for not wrapped. -/
theorem sim_never {b b' : Bool} {ts : List Target} {ret : Bool} {d d' : Den B S}
    (h : Sim (Wraps vs b ts ret) d d') (hn : b = b' ∨ ∀ x s v s', d x s ≠ some (.val v, s')) :
    Sim (Wraps vs b' ts ret) d d' := by
  rcases hn with rfl | hn
  · exact h
  · intro x s
    refine Agree.imp (h x s) fun o o' s' ho hw => ?_
    cases o <;> cases o' <;> first | exact hw | skip
    exact absurd ho (hn x s _ s')

/-- Whether the value of the `i`-th kid is wrapped. -/
def kidFlag (J : Job) (rs : Nat → Role) (ws : Nat → Option Bool) (ks : List Node) (i : Nat) : Bool :=
  (ws i).getD ((ks[i]?.map (isWrapped J (rs i))).getD false)

/-- The treatment keeps the meaning of consistently wrapped code, up to wrapping. -/
theorem eval_wrapped {J : Job} (hJ : J.tries = false) (f : Nat) : ∀ (n : Node) (w : Where) (ts : List Target)
    (r : Role) (n' : Node), w.closure = false → Consistent M J ts r n → ctors J.en n = 0 →
    Alike J.en n' (treat J w ts r n) → ctorsIn vs J.en n' →
    Sim (Wraps vs (isWrapped J r n) ts J.returns) (eval M J.en f (withoutMarkers J.marker n)) (eval M J.en f n') := by
  refine Node.ind (P := fun n => ∀ (w : Where) (ts : List Target)
    (r : Role) (n' : Node), w.closure = false → Consistent M J ts r n → ctors J.en n = 0 →
    Alike J.en n' (treat J w ts r n) → ctorsIn vs J.en n' →
    Sim (Wraps vs (isWrapped J r n) ts J.returns) (eval M J.en f (withoutMarkers J.marker n)) (eval M J.en f n')) ?_
  intro k as ks ih w ts r n' hcl hsup hct ha hvs
  rw [Consistent] at hsup
  obtain ⟨hw, hnb, hnev, hmac, hinert, hkids⟩ := hsup
  simp only [ctors, weigh_mk] at hct
  rw [treat.eq_def] at ha
  dsimp only at ha
  by_cases hcall : callsMacro J.marker k = true ∧ ks.length = 1
  · -- markers
    obtain ⟨hc1, hc2⟩ := hcall
    obtain ⟨t, rfl⟩ := callsMacro_iff.mp hc1
    obtain ⟨e, rfl⟩ : ∃ e, ks = [e] := by
      match ks, hc2 with
      | [e], _ => exact ⟨e, rfl⟩
    simp only [assemble, if_true] at ha
    obtain ⟨v, y, rfl, hy⟩ := ctor_inv ha
    simp only [weighL_cons, weighL_nil] at hct
    have h1 : ctors J.en e = 0 := by simp only [ctors]; omega
    have h2 : ctors J.en y = 0 := by rw [hy.ctors, h1]
    have h3 : y = e := by
      unfold Alike at hy
      rw [noAttrs_blur _ h1, noAttrs_blur _ h2] at hy
      exact hy
    subst h3
    rw [isWrapped, withoutMarkers, hc1]
    simp only [List.length_cons, List.length_nil, Nat.zero_add, BEq.rfl, Bool.and_self, if_true, Bool.or_true,
      Bool.true_or]
    intro x s
    rw [eval]
    simp only [evalL, node, kid, List.getElem?_cons_zero]
    refine agree_construct hvs.construct.1 ?_
    have hm := hmac y hc1 rfl f (unit M) s
    revert hm
    generalize eval M J.en f y (unit M) s = res
    intro hm
    match res with
    | none => trivial
    | some (.val v, s') => exact ⟨rfl, wrappedIf_false.mpr rfl⟩
    | some (.brk l v, s') => exact ⟨rfl, rfl, by rw [(hm s').1 l v rfl]; exact wrappedIf_false.mpr rfl⟩
    | some (.cont l, s') => exact ⟨rfl, rfl⟩
    | some (.ret v, s') => exact ⟨rfl, by rw [(hm s').2 v rfl]; exact wrappedIf_false.mpr rfl⟩
    | some (.fail v, s') => exact ⟨rfl, rfl⟩
    | some (.panic, s') => exact ⟨rfl, trivial⟩
    | some (.miss, s') => exact ⟨rfl, trivial⟩
  have hcall' : (callsMacro J.marker k && ks.length == 1) = false := by simpa using hcall
  -- from outside
  suffices hin : Sim (Wraps vs (isWrapped J r (.mk k as ks)) (through ts k as) J.returns)
      (eval M J.en f (withoutMarkers J.marker (.mk k as ks))) (eval M J.en f n') by
    intro x s
    refine Agree.imp (hin x s) fun o o' s' ho hw => ?_
    cases o <;> cases o' <;> first | exact hw | skip
    rename_i l v l' v'
    simp only [Wraps] at hw ⊢
    refine ⟨hw.1, ?_⟩
    unfold through at hw
    split at hw
    · rename_i hn
      rw [Bool.and_eq_true] at hn
      rw [hits_erased] at hw
      rw [hnb hn.1 hn.2 f x s l v s' ho]
      exact hw.2
    · exact hw.2
  rw [withoutMarkers, hcall']
  simp only [Bool.false_eq_true, if_false]
  have ht : isWrapped J r (.mk k as ks) = (role J r k as ks != .plain ||
      someWrapped J (fun i => isTail k ks.length i)
        (fun i => kidRole (role J r k as ks) k as ks.length i) ks) := by
    rw [isWrapped, hcall', Bool.or_false]
  clear hnb
  revert hw hkids ha ht
  generalize isWrapped J r (.mk k as ks) = t
  generalize role J r k as ks = r1
  intro ha hw hkids ht
  -- the kids
  have hsim : hidesCode k = false → isFrozen k = false → ∀ ks',
      AlikeL J.en ks' (treatL J (w.enter k) (fun i => kidTargets ts r1 k as i)
        (fun i => kidRole r1 k as ks.length i) ks) → (∀ n ∈ ks', ctorsIn vs J.en n) →
      SimL (KidsWrap vs B (kidFlag J (fun i => kidRole r1 k as ks.length i)
          (fun i => kidWrapped J ts r1 t k as ks i) ks) (fun i => kidTargets ts r1 k as i) J.returns)
        (evalL M J.en f (withoutMarkersL J.marker ks)) (evalL M J.en f ks') := by
    intro hh hf ks' hks' hvs'
    have hcl' : (w.enter k).closure = false := by
      cases k <;> first | exact hcl | cases hf
    have : ∀ (l l' : List Node) (ts : Nat → List Target) (rs : Nat → Role) (ws : Nat → Option Bool),
        (∀ n ∈ l, n ∈ ks) →
        weighL (isCtor J.en) l = 0 → ConsistentL M J ts rs ws l →
        AlikeL J.en l' (treatL J (w.enter k) ts rs l) → (∀ n ∈ l', ctorsIn vs J.en n) →
        SimL (KidsWrap vs B (kidFlag J rs ws l) ts J.returns)
          (evalL M J.en f (withoutMarkersL J.marker l)) (evalL M J.en f l') := by
      intro l
      induction l with
      | nil => intro l' ts rs ws _ _ _ h _; rw [alikeL_nil h]; exact .nil
      | cons a l ihl =>
        intro l' ts rs ws hmem hc hs h hvs'
        rw [ConsistentL] at hs
        rw [weighL_cons] at hc
        simp only [treatL] at h
        obtain ⟨a', m, rfl, h1, h2⟩ := alikeL_inv h
        simp only [evalL, withoutMarkersL]
        refine .cons (sim_never (ih a (hmem a (by simp)) _ _ _ _ hcl' hs.1 (by simp only [ctors]; omega) h1
            (hvs' a' (by simp))) ?_)
          (ihl m _ _ _ (fun n hn => hmem n (by simp [hn])) (by omega) hs.2.2 h2 fun n hn => hvs' n (by simp [hn]))
        cases hws : ws 0 with
        | none => left; simp [kidFlag, hws]
        | some b =>
          rcases hs.2.1 b hws with h | h
          · left; simp [kidFlag, hws, h]
          · right; exact h f
    exact this ks ks' _ _ _ (fun _ h => h) (by omega) (hkids hh hf) hks' hvs'
  -- nodes that stay
  have hkeep : ∀ as' ks', n' = .mk k as' ks' →
      AlikeL J.en ks' (if hidesCode k then ks else treatL J (w.enter k) (fun i => kidTargets ts r1 k as i)
        (fun i => kidRole r1 k as ks.length i) ks) →
      (k = .eReturn → (J.returns && !isCallOf J.marker ks) = false) →
      (∀ l, k = .eBreak l → (hits (through ts k as) l && !isCallOf J.marker ks) = false) →
      ((∃ p, k = .arm p) ∨ k = .block ∨ k = .eBlock none → r1 ≠ .branch) →
      Sim (Wraps vs t (through ts k as) J.returns)
        (eval M J.en f (.mk k as (if hidesCode k then ks else withoutMarkersL J.marker ks))) (eval M J.en f n') := by
    rintro as' ks' rfl hks' hret hbrk harm
    simp only [eval]
    refine node_stays hw ht ?_ ?_ harm ?_ ?_ (bs := kidFlag J (fun i => kidRole r1 k as ks.length i)
          (fun i => kidWrapped J ts r1 t k as ks i) ks) ?_ ?_ ?_
    · rintro rfl
      have h1 := hret rfl
      refine ⟨?_, ?_⟩
      · rintro rfl; simpa [isCallOf] using h1
      · simp only [kidFlag, kidWrapped, isDropped, Bool.false_eq_true, if_false, Option.getD_some]
        revert h1
        cases J.returns <;> cases isCallOf J.marker ks <;> simp
    · rintro l rfl
      have h1 := hbrk l rfl
      refine ⟨?_, ?_⟩
      · rintro rfl; simpa [isCallOf] using h1
      · simp only [kidFlag, kidWrapped, isDropped, Bool.false_eq_true, if_false, Option.getD_some]
        revert h1
        cases hits (through ts (.eBreak l) as) l <;> cases isCallOf J.marker ks <;> simp
    · intro hb hr i hd
      simp only [kidFlag, kidWrapped, hd, Bool.false_eq_true, if_false]
      split
      · exact absurd rfl (hb _)
      · exact absurd rfl hr
      · rfl
      · rename_i hif
        have : (r1 != .branch) = true := by
          cases r1 <;> try rfl
          exfalso
          unfold wrappable at hw
          split at hw <;> simp_all
        rw [this, Bool.and_true]
        rfl
    · rw [evalL_length]
      split
      · rfl
      · rw [withoutMarkersL_length]
    · intro hh hf
      rw [hh] at hks' ⊢
      exact hsim hh hf ks' hks' hvs.kids
    · intro hhf
      by_cases hh : hidesCode k = true
      · rw [if_pos hh] at hks' ⊢
        have h1 : ctors J.en (.mk .block [] ks) = 0 := by
          simp only [ctors, weigh_mk]
          have : isCtor J.en (.block, []) = 0 := rfl
          omega
        have h2 : Alike J.en (.mk .block [] ks') (.mk .block [] ks) := .node _ _ hks'
        have h3 : ctors J.en (.mk .block [] ks') = 0 := by rw [h2.ctors, h1]
        unfold Alike at h2
        rw [noAttrs_blur _ h1, noAttrs_blur _ h3] at h2
        cases h2
        rfl
      · have hf := hhf.resolve_left hh
        rw [if_neg hh] at hks' ⊢
        rw [withoutMarkersL_inert (hinert hf)]
        obtain ⟨hi1, hi2, hi3⟩ := hinert hf
        have hkt : ∀ i, kidTargets ts r1 k as i = [] := by
          intro i; cases k <;> first | rfl | cases hf
        have hkr : ∀ i, kidRole r1 k as ks.length i = .plain := by
          intro i; cases k <;> first | rfl | cases hf
        have hret' : (w.enter k).closure = true ∨ J.returns = false ∨ ∀ l ∈ visibleL ks, l.1 ≠ .eReturn := by
          cases k <;> first | (cases hf; done) | exact .inl rfl | skip
          cases hr : J.returns
          · exact .inr (.inl rfl)
          · exact .inr (.inr (hi3 rfl hr))
        have : ∀ (l l' : List Node) (ts : Nat → List Target) (rs : Nat → Role), (∀ n ∈ l, n ∈ ks) →
            weighL (isCtor J.en) l = 0 → hasNested l = false → (∀ i, ts i = []) → (∀ i, rs i = .plain) →
            AlikeL J.en l' (treatL J (w.enter k) ts rs l) → noAttrsL l' = noAttrsL l := by
          intro l
          induction l with
          | nil => intro l' ts rs _ _ _ _ _ h; rw [alikeL_nil h]
          | cons a l ihl =>
            intro l' ts rs hmem hc hn hts hrs h
            rw [weighL_cons] at hc
            rw [hasNested_cons, Bool.or_eq_false_iff] at hn
            simp only [treatL] at h
            obtain ⟨a', m, rfl, h1, h2⟩ := alikeL_inv h
            rw [hts, hrs] at h1
            rw [noAttrsL, noAttrsL, ihl m _ _ (fun n hn => hmem n (by simp [hn])) (by omega) hn.2
              (fun i => hts _) (fun i => hrs _) h2]
            have hv : ∀ x ∈ visible a, x ∈ visibleL ks := fun x hx => visibleL_mem (hmem a (by simp)) hx
            rw [frozen_alike hJ (by intro t ht; cases ht) (by simp only [ctors]; omega)
              (fun x hx => hi1 x (hv x hx)) hn.1 ?_ h1]
            rcases hret' with h | h | h
            · exact .inl h
            · exact .inr (.inl h)
            · exact .inr (.inr fun x hx => h x (hv x hx))
        exact this ks ks' _ _ (fun _ h => h) (by omega) hi2 hkt hkr hks'
    · rintro rfl
      exact constructor_kept hJ (by omega) hks'
  -- kids of branches are not wrapped
  have hbr : r1 = .branch → (∃ p, k = .arm p) ∨ ((k = .block ∨ k = .eBlock none)) → ∀ i,
      i + 1 = ks.length ∨ (∃ p, k = .arm p) →
      kidFlag J (fun i => kidRole r1 k as ks.length i) (fun i => kidWrapped J ts r1 t k as ks i) ks i = false := by
    rintro rfl h i hi
    rcases h with ⟨p, rfl⟩ | rfl | rfl <;> simp_all [kidFlag, kidWrapped, isDropped]
  have hk0 : isCtor J.en (k, as) = 0 := by omega
  have hcls : ∀ {ks2}, Alike J.en n' (.mk k (if carries k then strip as else as) ks2) →
      ∃ ks', n' = .mk k (if carries k then strip as else as) ks' ∧ AlikeL J.en ks' ks2 := by
    intro ks2 h
    obtain ⟨k', ks', rfl, h1, h2⟩ := h.inv
    rw [kind_of_blur hk0 h1]
    exact ⟨ks', rfl, h2⟩
  unfold assemble at ha
  dsimp only at ha
  split at ha
  · -- `return`
    cases r1 <;> try (cases hw; done)
    split at ha
    · rename_i hr
      simp only [Bool.and_eq_true, Bool.not_eq_true'] at hr
      obtain ⟨ks', rfl, hks'⟩ := hcls ha
      intro x s
      simp only [eval, Eval.node]
      cases ks with
      | nil =>
        simp only [hidesCode, Bool.false_eq_true, if_false, treatL, wrapHead] at hks'
        obtain ⟨a, m, rfl, h1, h2⟩ := alikeL_inv hks'
        cases alikeL_nil h2
        obtain ⟨v, y, rfl, h3⟩ := ctor_inv h1
        obtain ⟨kk, rfl, h4⟩ := Alike.rigid h3 (by simp)
        cases alikeL_nil h4
        simp only [evalL, List.isEmpty_cons, Bool.false_eq_true, if_false, kid, List.getElem?_cons_zero,
          eval_construct]
        simp only [eval, evalL, Eval.node, List.isEmpty_nil, if_true, andThen]
        refine ⟨rfl, ?_⟩
        rw [hr.1.1.1]
        exact ⟨v, (hvs.kids _ List.mem_cons_self).construct.1, rfl⟩
      | cons e es =>
        have h0 := hsim rfl rfl
        simp only [hidesCode, Bool.false_eq_true, if_false, treatL, wrapHead] at hks' h0
        obtain ⟨a, m, rfl, h1, h2⟩ := alikeL_inv hks'
        obtain ⟨v, y, rfl, h3⟩ := ctor_inv h1
        have h0 := h0 _ (alikeL_cons.mpr ⟨h3, h2⟩) (ctorsIn_head hvs.kids (hvs.kids _ List.mem_cons_self).construct.2)
        simp only [hidesCode, Bool.false_eq_true, if_false, withoutMarkersL, evalL] at h0 ⊢
        cases h0 with
        | cons h0 _ =>
          have h0 := h0 (unit M) s
          simp only [KidsWrap, kidFlag, kidWrapped, isDropped, Bool.false_eq_true, if_false, hr.2, Bool.and_false,
            Option.getD_some] at h0
          simp only [List.isEmpty_cons, Bool.false_eq_true, if_false, kid, List.getElem?_cons_zero]
          refine agree_andThen (b := true) (agree_construct (hvs.kids _ List.mem_cons_self).construct.1 h0) fun v v' s hv => ?_
          refine ⟨rfl, ?_⟩
          rw [hr.1.1.1]
          exact hv
    · rename_i hr
      obtain ⟨ks', rfl, hks'⟩ := hcls ha
      refine hkeep _ _ rfl hks' (fun _ => ?_) (fun _ h => by cases h) (fun h => by simp at h)
      cases hret : J.returns
      · rfl
      · have h1 := hnev rfl hret
        simpa [hret, h1, Where.enter, hcl] using hr
  · -- `break`
    rename_i l
    cases r1 <;> try (cases hw; done)
    split at ha
    · rename_i hr
      simp only [Bool.and_eq_true, Bool.not_eq_true'] at hr
      obtain ⟨ks', rfl, hks'⟩ := hcls ha
      intro x s
      simp only [eval, Eval.node]
      cases ks with
      | nil =>
        simp only [hidesCode, Bool.false_eq_true, if_false, treatL, wrapHead] at hks'
        obtain ⟨a, m, rfl, h1, h2⟩ := alikeL_inv hks'
        cases alikeL_nil h2
        obtain ⟨v, y, rfl, h3⟩ := ctor_inv h1
        obtain ⟨kk, rfl, h4⟩ := Alike.rigid h3 (by simp)
        cases alikeL_nil h4
        simp only [evalL, List.isEmpty_cons, Bool.false_eq_true, if_false, kid, List.getElem?_cons_zero,
          eval_construct]
        simp only [eval, evalL, Eval.node, List.isEmpty_nil, if_true, andThen]
        refine ⟨rfl, rfl, ?_⟩
        rw [hr.1]
        exact ⟨v, (hvs.kids _ List.mem_cons_self).construct.1, rfl⟩
      | cons e es =>
        have h0 := hsim rfl rfl
        simp only [hidesCode, Bool.false_eq_true, if_false, treatL, wrapHead] at hks' h0
        obtain ⟨a, m, rfl, h1, h2⟩ := alikeL_inv hks'
        obtain ⟨v, y, rfl, h3⟩ := ctor_inv h1
        have h0 := h0 _ (alikeL_cons.mpr ⟨h3, h2⟩) (ctorsIn_head hvs.kids (hvs.kids _ List.mem_cons_self).construct.2)
        simp only [hidesCode, Bool.false_eq_true, if_false, withoutMarkersL, evalL] at h0 ⊢
        cases h0 with
        | cons h0 _ =>
          have h0 := h0 (unit M) s
          simp only [KidsWrap, kidFlag, kidWrapped, isDropped, Bool.false_eq_true, if_false, hr, Bool.and_false,
            Option.getD_some] at h0
          simp only [List.isEmpty_cons, Bool.false_eq_true, if_false, kid, List.getElem?_cons_zero]
          refine agree_andThen (b := true) (agree_construct (hvs.kids _ List.mem_cons_self).construct.1 h0) fun v v' s hv => ?_
          refine ⟨rfl, rfl, ?_⟩
          rw [hr.1]
          exact hv
    · rename_i hr
      obtain ⟨ks', rfl, hks'⟩ := hcls ha
      refine hkeep _ _ rfl hks' (fun h => by cases h) (fun _ h => ?_) (fun h => by simp at h)
      cases h
      simpa using hr
  · -- `?`
    have ha : Alike J.en n' (.mk .eTry (if carries .eTry then strip as else as)
        (if hidesCode .eTry then ks else treatL J (w.enter .eTry) (fun i => kidTargets ts r1 .eTry as i)
        (fun i => kidRole r1 .eTry as ks.length i) ks)) := by
      split at ha
      · rename_i e he
        rw [hJ] at ha
        exact ha
      · exact ha
    obtain ⟨ks', rfl, hks'⟩ := hcls ha
    exact hkeep _ _ rfl hks' (fun h => by cases h) (fun _ h => by cases h) (fun h => by simp at h)
  · -- macros
    rename_i p t
    have ha : Alike J.en n' (.mk (.eMacro p t) (if carries (.eMacro p t) then strip as else as) ks) := by
      split at ha
      · rw [if_neg] at ha
        · exact ha
        · rintro rfl
          exact hcall ⟨callsMacro_iff.mpr ⟨_, rfl⟩, rfl⟩
      · exact ha
    obtain ⟨ks', rfl, hks'⟩ := hcls ha
    exact hkeep _ _ rfl hks' (fun h => by cases h) (fun _ h => by cases h) (fun h => by simp at h)
  · -- arms
    rename_i p
    obtain ⟨ks', rfl, hks'⟩ := hcls ha
    by_cases hb : r1 = .branch
    · subst hb
      have ht1 : t = true := by rw [ht]; rfl
      subst ht1
      have h0 := hsim rfl rfl
      have hfl := fun i => hbr rfl (.inl ⟨p, rfl⟩) i (.inr ⟨p, rfl⟩)
      simp only [hidesCode, Bool.false_eq_true, if_false, if_true] at hks' ⊢
      intro x s
      simp only [eval, Eval.node]
      unfold Eval.arm
      dsimp only
      have hmiss : ∀ s : S, Agree (Wraps (B := B) vs true (through ts (.arm p) as) J.returns)
        (some (.miss, s)) (some (.miss, s)) :=
        fun s => ⟨rfl, trivial⟩
      split
      · match ks, hks', h0 with
        | [], hks', _ => rw [alikeL_nil hks']; exact agree_panic
        | [b], hks', h0 =>
          simp only [treatL, wrapLast] at hks'
          obtain ⟨c, m, rfl, h1, h2⟩ := alikeL_inv hks'
          cases alikeL_nil h2
          obtain ⟨v, y, rfl, h3⟩ := ctor_inv h1
          have hv := (hvs.kids _ List.mem_cons_self).construct
          have h0 := h0 [y] (by simp only [treatL]; exact .cons h3 rfl) (by simpa using hv.2)
          simp only [evalL, withoutMarkersL] at h0 ⊢
          cases h0 with
          | cons h0 _ =>
            refine agree_construct hv.1 ?_
            have h0 := h0 (unit M) (M.test p x s).2
            simp only [KidsWrap, hfl] at h0
            exact h0
        | [g, b], hks', h0 =>
          simp only [treatL, wrapLast] at hks'
          obtain ⟨g', m, rfl, hg, h2⟩ := alikeL_inv hks'
          obtain ⟨c, m, rfl, h1, h2⟩ := alikeL_inv h2
          cases alikeL_nil h2
          obtain ⟨v, y, rfl, h3⟩ := ctor_inv h1
          have hv := (hvs.kids _ (List.mem_cons_of_mem _ List.mem_cons_self)).construct
          have h0 := h0 [g', y] (by simp only [treatL]; exact .cons hg (.cons h3 rfl))
            (by simpa using ⟨hvs.kids _ List.mem_cons_self, hv.2⟩)
          simp only [evalL, withoutMarkersL] at h0 ⊢
          cases h0 with
          | cons h0 h4 =>
            cases h4 with
            | cons h4 _ =>
              have h0 := h0 (unit M) (M.test p x s).2
              simp only [KidsWrap, hfl] at h0
              refine agree_andThen (b := false) h0 fun v v' s hv' => ?_
              rw [wrappedIf_false.mp hv']
              split
              · refine agree_construct hv.1 ?_
                have h4 := h4 (unit M) s
                simp only [KidsWrap, hfl] at h4
                exact h4
              · exact hmiss _
        | g :: b :: c :: l, hks', h0 =>
          have hl := hks'.length
          have hwl : ∀ l : List Node, (wrapLast J l).length = l.length := by
            intro l
            induction l with
            | nil => rfl
            | cons a l ih => cases l with
              | nil => rfl
              | cons b l => simpa [wrapLast] using ih
          rw [hwl, treatL_length] at hl
          match ks', hl with
          | a' :: b' :: c' :: l', _ => simp only [withoutMarkersL, evalL]; exact agree_panic
      · exact hmiss _
    · rw [if_neg hb] at hks'
      exact hkeep _ _ rfl hks' (fun h => by cases h) (fun _ h => by cases h) (fun _ => hb)
  · -- blocks
    obtain ⟨ks', rfl, hks'⟩ := hcls ha
    by_cases hb : r1 = .branch
    · subst hb
      have h0 := hsim rfl rfl
      simp only [hidesCode, Bool.false_eq_true, if_false, if_true, wrapAll] at hks'
      obtain ⟨a, m, rfl, h1, h2⟩ := alikeL_inv hks'
      cases alikeL_nil h2
      obtain ⟨l1, rfl, h3⟩ := Alike.rigid h1 (by simp)
      obtain ⟨a, m, rfl, h4, h5⟩ := alikeL_inv h3
      cases alikeL_nil h5
      obtain ⟨v, y, rfl, h6⟩ := ctor_inv h4
      obtain ⟨l2, rfl, h7⟩ := Alike.rigid h6 (by simp)
      have hv := ((hvs.kids _ List.mem_cons_self).kids _ List.mem_cons_self).construct
      have h0 := h0 l2 h7 hv.2.kids
      have ht1 : t = true := by rw [ht]; rfl
      subst ht1
      have hp := one_target (ts' := through ts .block as) h0 (fun i => rfl)
      intro x s
      have h8 := agree_stmts (M := M) hp (b := false) (fun i hi => hbr rfl (.inr (.inl rfl)) i
        (.inl (by rw [hi, evalL_length, withoutMarkersL_length]))) (fun _ => rfl) s
      simp only [hidesCode, Bool.false_eq_true, if_false]
      rw [eval, eval, evalL, evalL, eval, evalL, evalL]
      simp only [Eval.node, stmts, kid, List.getElem?_cons_zero, Bool.false_eq_true, if_false]
      refine agree_construct hv.1 ?_
      simpa only [eval, Eval.node, labelled_none] using h8
    · rw [if_neg hb] at hks'
      exact hkeep _ _ rfl hks' (fun h => by cases h) (fun _ h => by cases h) (fun _ => hb)
  · rename_i l
    obtain ⟨ks', rfl, hks'⟩ := hcls ha
    by_cases hb : r1 = .branch
    · subst hb
      cases l with
      | some l => cases hw
      | none =>
      have h0 := hsim rfl rfl
      simp only [hidesCode, Bool.false_eq_true, if_false, if_true, wrapAll] at hks'
      obtain ⟨a, m, rfl, h1, h2⟩ := alikeL_inv hks'
      cases alikeL_nil h2
      obtain ⟨l1, rfl, h3⟩ := Alike.rigid h1 (by simp)
      obtain ⟨a, m, rfl, h4, h5⟩ := alikeL_inv h3
      cases alikeL_nil h5
      obtain ⟨v, y, rfl, h6⟩ := ctor_inv h4
      obtain ⟨l2, rfl, h7⟩ := Alike.rigid h6 (by simp)
      have hv := ((hvs.kids _ List.mem_cons_self).kids _ List.mem_cons_self).construct
      have h0 := h0 l2 h7 hv.2.kids
      have ht1 : t = true := by rw [ht]; rfl
      subst ht1
      have hp := one_target (ts' := through ts (.eBlock none) as) h0 (fun i => rfl)
      intro x s
      have h8 := agree_stmts (M := M) hp (b := false) (fun i hi => hbr rfl (.inr (.inr rfl)) i
        (.inl (by rw [hi, evalL_length, withoutMarkersL_length]))) (fun _ => rfl) s
      simp only [hidesCode, Bool.false_eq_true, if_false]
      rw [eval, eval, evalL, evalL, eval, evalL, evalL]
      simp only [Eval.node, stmts, kid, List.getElem?_cons_zero, Bool.false_eq_true, if_false,
        labelled_none]
      refine agree_construct hv.1 ?_
      simpa only [eval, Eval.node, labelled_none] using h8
    · rw [if_neg hb] at hks'
      exact hkeep _ _ rfl hks' (fun h => by cases h) (fun _ h => by cases h) (fun _ => hb)
  · obtain ⟨ks', rfl, hks'⟩ := hcls ha
    refine hkeep _ _ rfl hks' (fun h => ?_) (fun l h => ?_) (fun h => ?_)
    · subst h; rename_i h _ _ _ _ _ _; exact absurd rfl h
    · subst h; simp_all
    · rcases h with ⟨p, rfl⟩ | rfl | rfl <;> simp_all

/-! ## Code without markers and `#[nested]` -/

theorem role_plain {J : Job} {k : Kind} {as : List Attr} {ks : List Node}
    (h : carries k = true → marked "nested" as = false) : role J .plain k as ks = .plain := by
  unfold role
  split
  · rfl
  · dsimp only
    rw [if_neg]
    intro h'
    simp only [Bool.and_eq_true] at h'
    rw [h (by unfold carries; split <;> first | rfl | exact h'.1.1)] at h'
    cases h'.1.2

theorem kidRole_plain {k : Kind} {as : List Attr} {n i : Nat}
    (h : carries k = true → marked "nested" as = false) : kidRole .plain k as n i = .plain := by
  unfold kidRole
  split <;> first | rfl | (simp [h rfl]; done) | simp

/-- Which kids are to be wrapped, without `#[nested]`. -/
theorem kidWrapped_role {J : Job} {ts : List Target} {r : Role} {k : Kind} {as : List Attr} {ks : List Node}
    {i : Nat} {b : Bool} (hw : wrappable r k ks = true) (hn : carries k = true → marked "nested" as = false)
    (hc : isCallOf J.marker ks = false)
    (h : kidWrapped J ts r (r != .plain) k as ks i = some b) :
    b = decide (kidRole r k as ks.length i ≠ .plain) := by
  unfold kidWrapped at h
  split at h
  · cases h
  rename_i hd
  simp only [hc, Bool.and_false] at h
  cases r with
  | plain =>
    rw [kidRole_plain hn]
    split at h <;> (cases h; simp)
  | result =>
    unfold wrappable at hw
    split at hw <;> first
      | (cases hw; done)
      | (rename_i h1 h2; cases h1; done)
      | (cases h
         simp_all [kidRole, isTail, isDropped]
         done)
      | skip
    all_goals first
      | (rename_i h1; cases h1; done)
      | (cases h; by_cases hi : i = 0 <;> simp_all [kidRole, isTail, isDropped, carries]; done)
  | branch =>
    unfold wrappable at hw
    split at hw <;> first
      | (cases hw; done)
      | (rename_i h1 h2; cases h1; done)
      | (cases h
         simp_all [kidRole, isTail, isDropped]
         done)
      | skip
    all_goals first
      | (rename_i h1; cases h1; done)
      | (cases h; by_cases hi : i = 0 <;> simp_all [kidRole, isTail, isDropped, carries]; done)

theorem someWrapped_false {J : Job} {sel : Nat → Bool} {rs : Nat → Role} : ∀ {ks : List Node},
    (∀ i n, ks[i]? = some n → isWrapped J (rs i) n = false) → someWrapped J sel rs ks = false := by
  intro ks
  induction ks generalizing sel rs with
  | nil => intro _; rfl
  | cons n ns ih =>
    intro h
    rw [someWrapped, h 0 n rfl, ih fun i m hi => h (i + 1) m (by simpa using hi), Bool.and_false]
    rfl

/-- Covered code has no markers. -/
theorem covered_unmarked {J : Job} : ∀ (n : Node) (ts : List Target) (r : Role), Covered M J ts r n →
    withoutMarkers J.marker n = n := by
  refine Node.ind (P := fun n => ∀ (ts : List Target) (r : Role), Covered M J ts r n → withoutMarkers J.marker n = n) ?_
  intro k as ks ih ts r h
  have hmac := Covered.marker h
  rw [Covered] at h
  obtain ⟨-, -, -, -, -, -, hi, hk⟩ := h
  have h0 : callsMacro J.marker k = false := by
    cases hc : callsMacro J.marker k
    · rfl
    · obtain ⟨t, rfl⟩ := callsMacro_iff.mp hc
      exact absurd rfl (hmac _ _ rfl)
  rw [withoutMarkers, h0]
  simp only [Bool.false_and, Bool.false_eq_true, if_false]
  split
  · rfl
  · rename_i hh
    by_cases hf : isFrozen k = true
    · rw [withoutMarkersL_inert (hi hf)]
    · have : ∀ (l : List Node) (ts : Nat → List Target) (rs : Nat → Role), (∀ c ∈ l, c ∈ ks) →
          CoveredL M J ts rs l → withoutMarkersL J.marker l = l := by
        intro l
        induction l with
        | nil => intro _ _ _ _; rfl
        | cons a l ihl =>
          intro ts rs hm hl
          rw [CoveredL] at hl
          rw [withoutMarkersL, ih a (hm a List.mem_cons_self) _ _ hl.1,
            ihl _ _ (fun c hc => hm c (List.mem_cons_of_mem _ hc)) hl.2]
      rw [this ks _ _ (fun _ h => h) (hk (by simpa using hh) (by simpa using hf))]

/-- What is wrapped in covered code. -/
theorem covered_wrapped {J : Job} : ∀ (n : Node) (ts : List Target) (r : Role), Covered M J ts r n →
    ∀ k as ks, n = .mk k as ks → isWrapped J r n = (role J r k as ks != .plain) := by
  refine Node.ind (P := fun n => ∀ (ts : List Target) (r : Role), Covered M J ts r n →
    ∀ k as ks, n = .mk k as ks → isWrapped J r n = (role J r k as ks != .plain)) ?_
  rintro k as ks ih ts r h _ _ _ ⟨⟩
  have hmac := Covered.marker h
  rw [Covered] at h
  obtain ⟨-, -, -, -, -, hn, hi, hk⟩ := h
  have h0 : callsMacro J.marker k = false := by
    cases hc : callsMacro J.marker k
    · rfl
    · obtain ⟨t, rfl⟩ := callsMacro_iff.mp hc
      exact absurd rfl (hmac _ _ rfl)
  rw [isWrapped, h0]
  simp only [Bool.false_and, Bool.or_false]
  by_cases hr : role J r k as ks = .plain
  · rw [hr] at hk ⊢
    simp only [bne_self_eq_false, Bool.false_or]
    by_cases hh : hidesCode k = true ∨ isFrozen k = true
    · refine someWrapped_none fun i _ => ?_
      rcases hh with hh | hh <;> cases k <;> first | rfl | (cases hh; done)
    · simp only [not_or, Bool.not_eq_true] at hh
      have : ∀ (l : List Node) (ts : Nat → List Target) (rs : Nat → Role), (∀ c ∈ l, c ∈ ks) →
          (∀ i, rs i = .plain) → CoveredL M J ts rs l → ∀ i n, l[i]? = some n → isWrapped J (rs i) n = false := by
        intro l
        induction l with
        | nil => intro _ _ _ _ _ i n h; cases h
        | cons a l ihl =>
          intro ts rs hm hrs hl i n hin
          rw [CoveredL] at hl
          cases i with
          | succ i => exact ihl _ _ (fun c hc => hm c (List.mem_cons_of_mem _ hc)) (fun i => hrs _) hl.2 i n hin
          | zero =>
            cases hin
            obtain ⟨k', as', ks'⟩ := a
            rw [ih _ (hm _ List.mem_cons_self) _ _ hl.1 _ _ _ rfl, hrs]
            have := hl.1
            rw [Covered] at this
            rw [role_plain this.2.2.2.2.2.1]
            rfl
      exact someWrapped_false (this ks _ _ (fun _ h => h) (fun i => kidRole_plain hn) (hk hh.1 hh.2))
  · have : (role J r k as ks != .plain) = true := by simpa using hr
    rw [this]
    rfl

/-- Covered code is consistently wrapped. -/
theorem Covered.consistent {J : Job} : ∀ (n : Node) (ts : List Target) (r : Role), Covered M J ts r n →
    Consistent M J ts r n := by
  refine Node.ind (P := fun n => ∀ (ts : List Target) (r : Role), Covered M J ts r n → Consistent M J ts r n) ?_
  intro k as ks ih ts r h
  have hu := covered_unmarked _ _ _ h
  have ht := covered_wrapped _ _ _ h _ _ _ rfl
  have hmac := Covered.marker h
  rw [Covered] at h
  obtain ⟨hw, -, hnb, hret, -, hn, hi, hk⟩ := h
  rw [Consistent]
  refine ⟨hw, ?_, hret, ?_, hi, ?_⟩
  · rw [hu]; exact hnb
  · intro e hc
    obtain ⟨t, rfl⟩ := callsMacro_iff.mp hc
    exact absurd rfl (hmac _ _ rfl)
  · intro hh hf
    have hk := hk hh hf
    have hcall := isCallOf_covered hk
    rw [ht]
    have hws : ∀ i b, kidWrapped J ts (role J r k as ks) (role J r k as ks != .plain) k as ks i = some b →
        b = decide (kidRole (role J r k as ks) k as ks.length i ≠ .plain) :=
      fun i b h => kidWrapped_role hw hn hcall h
    have : ∀ (l : List Node) (ts : Nat → List Target) (rs : Nat → Role) (ws : Nat → Option Bool),
        (∀ c ∈ l, c ∈ ks) → (∀ i b, ws i = some b → b = decide (rs i ≠ .plain)) → CoveredL M J ts rs l →
        ConsistentL M J ts rs ws l := by
      intro l
      induction l with
      | nil => intro _ _ _ _ _ _; trivial
      | cons a l ihl =>
        intro ts rs ws hm hws hl
        rw [CoveredL] at hl
        rw [ConsistentL]
        refine ⟨ih a (hm a List.mem_cons_self) _ _ hl.1, fun b hb => ?_,
          ihl _ _ _ (fun c hc => hm c (List.mem_cons_of_mem _ hc)) (fun i b h => hws (i + 1) b h) hl.2⟩
        obtain ⟨k', as', ks'⟩ := a
        have h1 := covered_wrapped _ _ _ hl.1 _ _ _ rfl
        have h2 := covered_unmarked _ _ _ hl.1
        rw [h2, h1, hws 0 b hb]
        have h3 := hl.1
        rw [Covered] at h3
        by_cases hr : rs 0 = .plain
        · left
          rw [hr, role_plain h3.2.2.2.2.2.1]
          rfl
        · by_cases hr' : role J (rs 0) k' as' ks' = .plain
          · exact .inr (h3.2.1 hr hr')
          · left; simp [hr, hr']
    exact this ks _ _ _ (fun _ h => h) hws hk

end

end AutoEnums
