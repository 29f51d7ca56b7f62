import Verif.Spec.Diverge
import Verif.Lemmas.EvalSim
import Verif.Lemmas.Skip

/-! # Lemmas: diverging code -/

namespace AutoEnums

open Spec

section

variable {B S : Type} {M : Machine B S}

open Eval

/-! ## Where `break`s come from -/

/-- Every `break` that is the outcome satisfies `R`. -/
def Breaks (R : Option String → Prop) (r : Res B S) : Prop := ∀ l v s, r = some (.brk l v, s) → R l

/-- The same for every run. -/
def BreaksD (R : Option String → Prop) (d : Den B S) : Prop := ∀ x s, Breaks R (d x s)

variable {R : Option String → Prop}

theorem breaks_val {v : Value B} {s : S} : Breaks R (some (.val v, s)) := by intro l u s' h; cases h
theorem breaks_panic {s : S} : Breaks R (B := B) (some (.panic, s)) := by intro l u s' h; cases h
theorem breaks_miss {s : S} : Breaks R (B := B) (some (.miss, s)) := by intro l u s' h; cases h
theorem breaks_none : Breaks R (B := B) (S := S) none := by intro l u s' h; cases h

theorem breaks_andThen {r : Res B S} {g : Value B → S → Res B S} (h : Breaks R r)
    (hg : ∀ v s, Breaks R (g v s)) : Breaks R (andThen r g) := by
  unfold andThen
  split
  · exact hg _ _
  · exact h

theorem breaks_kid {ds : List (Den B S)} (h : ∀ d ∈ ds, BreaksD R d) (i : Nat) (s : S) :
    Breaks R (kid M ds i s) := by
  unfold kid
  split
  · rename_i d hd
    exact h d (List.mem_of_getElem? hd) _ _
  · exact breaks_panic

theorem breaks_discard {r : Res B S} (h : Breaks R r) : Breaks R (discard M r) :=
  breaks_andThen h fun _ _ => breaks_val

theorem breaks_stmts : ∀ {ds : List (Den B S)}, (∀ d ∈ ds, BreaksD R d) → ∀ s, Breaks R (stmts M ds s)
  | [], _, s => breaks_val
  | [d], h, s => h d (by simp) _ _
  | d :: d' :: ds, h, s => by
    unfold stmts
    exact breaks_andThen (h d (by simp) _ _) fun _ s => breaks_stmts (fun x hx => h x (by simp [hx])) s

theorem breaks_labelled {l : Option String} {r : Res B S} (h : Breaks R r) : Breaks R (labelled l r) := by
  unfold labelled
  split
  · split
    · exact breaks_val
    · exact h
  · exact h

theorem breaks_arms {v : Value B} : ∀ {ds : List (Den B S)}, (∀ d ∈ ds, BreaksD R d) →
    ∀ s, Breaks R (arms v ds s)
  | [], _, s => breaks_panic
  | d :: ds, h, s => by
    unfold arms
    split
    · exact breaks_arms (fun x hx => h x (by simp [hx])) _
    · exact h d (by simp) _ _

theorem breaks_arm {p : String} {ds : List (Den B S)} (h : ∀ d ∈ ds, BreaksD R d) (v : Value B) (s : S) :
    Breaks R (arm M p ds v s) := by
  unfold arm
  dsimp only
  split
  · split
    · exact h _ (by simp) _ _
    · refine breaks_andThen (h _ (by simp) _ _) fun c s => ?_
      split
      · exact h _ (by simp) _ _
      · exact breaks_miss
    · exact breaks_panic
  · exact breaks_miss

theorem breaks_round {l : Option String} {r : Res B S} {next : S → Res B S}
    {leave : Value B → S → Res B S} (h : Breaks R r) (hn : ∀ s, Breaks R (next s))
    (hl : ∀ v s, Breaks R (leave v s)) : Breaks R (round l r next leave) := by
  unfold round
  split
  · exact hn _
  · split
    · exact hn _
    · intro l u s' h; cases h
  · split
    · exact hl _ _
    · exact h
  · exact h

theorem breaks_loop {l : Option String} {d : S → Res B S} (h : ∀ s, Breaks R (d s)) (f : Nat) :
    ∀ s, Breaks R (loop l d f s) := by
  induction f with
  | zero => intro s; exact breaks_none
  | succ f ih =>
    intro s
    unfold loop
    exact breaks_round (h s) ih fun _ _ => breaks_val

theorem breaks_while {l : Option String} {c d : S → Res B S} (hc : ∀ s, Breaks R (c s))
    (h : ∀ s, Breaks R (d s)) (f : Nat) : ∀ s, Breaks R (while_ M l c d f s) := by
  induction f with
  | zero => intro s; exact breaks_none
  | succ f ih =>
    intro s
    unfold while_
    dsimp only
    split
    · split
      · exact breaks_round (h _) ih fun _ _ => breaks_val
      · exact breaks_val
    · exact breaks_round (hc s) ih fun _ _ => breaks_val

theorem breaks_for {k : Kind} {l : Option String} {v : Value B} {d : S → Res B S}
    (h : ∀ s, Breaks R (d s)) (f : Nat) : ∀ s, Breaks R (for_ M k l v d f s) := by
  induction f with
  | zero => intro s; exact breaks_none
  | succ f ih =>
    intro s
    unfold for_
    split
    · exact breaks_round (h _) ih fun _ _ => breaks_val
    · exact breaks_val
    · exact breaks_panic

theorem breaks_other {k : Kind} {ds : List (Den B S)} (h : ∀ d ∈ ds, BreaksD R d) (f : Nat) :
    ∀ us s, Breaks R (other M k ds f us s) := by
  induction f with
  | zero => intro _ s; exact breaks_none
  | succ f ih =>
    intro us s
    unfold other
    split
    · exact breaks_andThen (breaks_kid h _ _) fun v s => ih _ _
    · exact breaks_val
    · exact breaks_panic

theorem breaks_freeze {k : Kind} {ks : List Node} {s : S} : Breaks R (freeze M k ks s) := by
  unfold freeze
  split
  · exact breaks_val
  · exact breaks_panic

theorem breaks_node {en : Ident} {f : Nat} {k : Kind} {ks : List Node} {ds : List (Den B S)}
    (h : hidesCode k = false → ∀ d ∈ ds, BreaksD R d) (hb : ∀ l, k = .eBreak l → R l) :
    BreaksD R (node M en f k ks ds) := by
  intro x s
  by_cases hoth : isOther k = true
  · rw [node_other hoth]
    exact breaks_other (h (by cases k <;> first | rfl | cases hoth)) f [] s
  cases k <;> try (exact absurd rfl hoth)
  all_goals simp only [node]
  case eAsync => exact breaks_freeze
  case eClosure => exact breaks_freeze
  case eVerbatim => exact breaks_freeze
  case eMacro => split; exact breaks_panic; exact breaks_freeze
  case sMacro => split; exact breaks_panic; exact breaks_freeze
  case sItem => exact breaks_val
  case eContinue => intro l u s' h; cases h
  case eCall =>
    split
    · exact breaks_andThen (breaks_kid (h rfl) _ _) fun _ _ => breaks_val
    · exact breaks_other (h rfl) f [] s
  case ePath => split; exact breaks_val; exact breaks_other (h rfl) f [] s
  case eTuple => split; exact breaks_val; exact breaks_other (h rfl) f [] s
  case eTry =>
    refine breaks_andThen (breaks_kid (h rfl) _ _) fun v s => ?_
    split
    · intro l u s' h; cases h
    · split
      · exact breaks_val
      · exact breaks_panic
      · exact breaks_panic
  case eTryBlock =>
    have := breaks_stmts (M := M) (h rfl) s
    split
    · exact breaks_val
    · exact breaks_val
    · exact this
  case eReturn =>
    split
    · intro l u s' h; cases h
    · exact breaks_andThen (breaks_kid (h rfl) _ _) fun v s => by intro l u s' h; cases h
  case eBreak l =>
    have hl : ∀ (v : Value B) (s : S), Breaks R (some (.brk l v, s)) := by
      intro v s l' u s' h; cases h; exact hb l rfl
    split
    · exact hl _ _
    · exact breaks_andThen (breaks_kid (h rfl) _ _) fun v s => hl _ _
  case eConst => exact breaks_stmts (h rfl) s
  case block => exact breaks_stmts (h rfl) s
  case eUnsafe => exact breaks_stmts (h rfl) s
  case eGroup => exact breaks_kid (h rfl) _ _
  case eParen => exact breaks_kid (h rfl) _ _
  case sExpr => split; exact breaks_discard (breaks_kid (h rfl) _ _); exact breaks_kid (h rfl) _ _
  case sLocal =>
    refine breaks_discard ?_
    unfold first
    split
    · exact breaks_other (h rfl) f [] s
    · exact breaks_andThen (breaks_kid (h rfl) _ _) fun v s => breaks_other (h rfl) f _ s
  case eMethodCall =>
    unfold first
    split
    · exact breaks_other (h rfl) f [] s
    · exact breaks_andThen (breaks_kid (h rfl) _ _) fun v s => breaks_other (h rfl) f _ s
  case eBlock => exact breaks_labelled (breaks_stmts (h rfl) s)
  case eMatch =>
    exact breaks_andThen (breaks_kid (h rfl) _ _) fun v s =>
      breaks_arms (fun d hd => h rfl d (List.mem_of_mem_tail hd)) s
  case arm => exact breaks_arm (h rfl) _ _
  case eIf =>
    unfold Eval.cond
    refine breaks_andThen (breaks_kid (h rfl) _ _) fun v s => ?_
    split
    · exact breaks_kid (h rfl) _ _
    · split
      · exact breaks_val
      · exact breaks_kid (h rfl) _ _
  case eLoop => exact breaks_loop (fun s => breaks_kid (h rfl) _ _) f s
  case eWhile =>
    exact breaks_while (fun s => breaks_kid (h rfl) _ _) (fun s => breaks_kid (h rfl) _ _) f s
  case eForLoop =>
    exact breaks_andThen (breaks_kid (h rfl) _ _) fun v s =>
      breaks_for (fun s => breaks_kid (h rfl) _ _) f s

theorem mem_evalL {M : Machine B S} {en : Ident} {f : Nat} : ∀ {l : List Node} {d : Den B S},
    d ∈ evalL M en f l → ∃ n ∈ l, d = eval M en f n
  | [], d, h => by cases h
  | n :: l, d, h => by
    rw [evalL] at h
    rcases List.mem_cons.mp h with rfl | h
    · exact ⟨n, by simp, rfl⟩
    · obtain ⟨m, hm, rfl⟩ := mem_evalL h
      exact ⟨m, by simp [hm], rfl⟩

/-- Every `break` comes from a `break` in the source. -/
theorem breaks_visible {en : Ident} {f : Nat} : ∀ n : Node,
    BreaksD (fun l => ∃ as, (Kind.eBreak l, as) ∈ visible n) (eval M en f n) := by
  refine Node.ind (P := fun n => BreaksD (fun l => ∃ as, (Kind.eBreak l, as) ∈ visible n) (eval M en f n)) ?_
  intro k as ks ih
  rw [eval]
  refine breaks_node (fun hh d hd => ?_) (fun l hl => ?_)
  · obtain ⟨n, hn, rfl⟩ := mem_evalL hd
    intro x s l v s' h
    obtain ⟨as', hm⟩ := ih n hn x s l v s' h
    refine ⟨as', ?_⟩
    rw [visible, hh]
    exact List.mem_cons_of_mem _ (visibleL_mem hn hm)
  · subst hl
    exact ⟨as, by rw [visible]; exact List.mem_cons_self⟩

/-! ## Code that does not complete -/

/-- The outcome is no value. -/
def NoVal (r : Res B S) : Prop := ∀ v s, r ≠ some (.val v, s)

theorem noVal_andThen {r : Res B S} {g : Value B → S → Res B S} (h : NoVal r) : NoVal (andThen r g) := by
  unfold andThen
  split
  · exact absurd rfl (h _ _)
  · exact h

theorem noVal_andThen' {r : Res B S} {g : Value B → S → Res B S} (h : ∀ v s, NoVal (g v s)) :
    NoVal (andThen r g) := by
  unfold andThen
  split
  · exact h _ _
  · rename_i h; intro v s he; exact h v s he

theorem noVal_stmts : ∀ {ds : List (Den B S)} {d : Den B S}, ds.getLast? = some d → (∀ x s, NoVal (d x s)) →
    ∀ s, NoVal (stmts M ds s)
  | [], d, h, _, s => by cases h
  | [d'], d, h, hd, s => by
    simp only [List.getLast?_singleton, Option.some.injEq] at h
    subst h
    exact hd _ _
  | d' :: d'' :: ds, d, h, hd, s => by
    unfold stmts
    rw [List.getLast?_cons_cons] at h
    exact noVal_andThen' fun _ s => noVal_stmts h hd s

theorem noVal_arms {v : Value B} : ∀ {ds : List (Den B S)}, (∀ d ∈ ds, ∀ x s, NoVal (d x s)) →
    ∀ s, NoVal (arms v ds s)
  | [], _, s => by intro v s h; cases h
  | d :: ds, h, s => by
    unfold arms
    split
    · exact noVal_arms (fun x hx => h x (by simp [hx])) _
    · exact h d (by simp) _ _

theorem noVal_labelled {l : String} {r : Res B S} (h : NoVal r)
    (hb : Breaks (fun l' => l' ≠ some l) r) : NoVal (labelled (some l) r) := by
  unfold labelled
  split
  · split
    · rename_i h'; exact absurd h'.symm (hb _ _ _ rfl)
    · intro v s h; cases h
  · exact h

theorem isMarker_false {cx : Cx} {p : Path} (h : ((cx.marker :: cx.markers).all fun m =>
    p != ⟨false, [⟨m, none⟩]⟩) = true) : cx.isMarker p = false := by
  have hp : ∀ m : String, p ≠ ⟨false, [⟨m, none⟩]⟩ → p.isIdent m = false := by
    intro m hm
    have := named_iff m ⟨p, .path⟩
    simp only [named, Attr.is] at this
    rw [← this]
    simpa using hm
  simp only [List.all_cons, Bool.and_eq_true, List.all_eq_true, bne_iff_ne, ne_eq] at h
  unfold Cx.isMarker Cx.isMarkerExact
  simp only [hp _ h.1, Bool.false_or]
  split
  · rfl
  · rw [List.any_eq_false]
    intro m hm
    simp [hp m (h.2 m hm)]

theorem panics_of {cx : Cx} {p : Path} (h : isUnreachableMacro cx p = true)
    (hm : ((cx.marker :: cx.markers).all fun m => p != ⟨false, [⟨m, none⟩]⟩) = true) : panics p = true := by
  have h1 := pathEq_std p [] "panic"
  have h2 := pathEq_std p [] "unreachable"
  simp only [List.nil_append] at h1 h2
  simp only [isUnreachableMacro, isMarker_false hm, List.any_cons, List.any_nil, h1, h2, isOneOf,
    Bool.or_false] at h
  simp only [panics, isOneOf]
  simp at h ⊢
  grind

theorem fails_of {en : Ident} {f : Nat} {e : Node} (h : isNoneOrErr e = true) {x : Value B} {s : S}
    {v : Value B} {s' : S} (he : eval M en f e x s = some (.val v, s')) : M.fails v = true := by
  rw [failing_eq] at h
  unfold failing at h
  split at h
  · rename_i p as ks
    rw [eval] at he
    simp only [node] at he
    rw [if_pos (by simpa [Eval.isNone] using h)] at he
    cases he
    exact M.fails_none
  · rename_i as p as' ks a
    rw [eval] at he
    simp only [node] at he
    have hc : constructor M en [.mk (.ePath false p) as' ks, a] = some M.err := by
      simp only [constructor, Node.kind]
      unfold callee
      split
      · rename_i heq
        cases heq
        simp [isOneOf] at h
      · rename_i heq
        cases heq
        exact if_pos h
      · rename_i h1 h2
        exact absurd rfl (h2 _)
    rw [hc] at he
    simp only at he
    unfold andThen at he
    split at he
    · cases he
      exact M.fails_err _
    · rename_i h1
      exact absurd he (h1 _ _)
  · cases h

theorem tameL_mem {ms : List String} {l : List Node} (h : tameL ms l = true) : ∀ n ∈ l, tame ms n = true := by
  induction l with
  | nil => intro n hn; cases hn
  | cons a l ih =>
    rw [tameL, Bool.and_eq_true] at h
    intro n hn
    rcases List.mem_cons.mp hn with rfl | hn
    · exact h.1
    · exact ih h.2 n hn

theorem evalL_getLast {M : Machine B S} {en : Ident} {f : Nat} {l : List Node} {n : Node}
    (h : l.getLast? = some n) : (evalL M en f l).getLast? = some (eval M en f n) := by
  induction l with
  | nil => cases h
  | cons a l ih =>
    cases l with
    | nil => simp only [List.getLast?_singleton, Option.some.injEq] at h; subst h; rfl
    | cons b l =>
      rw [List.getLast?_cons_cons] at h
      have := ih h
      rw [evalL] at this ⊢
      rw [evalL, List.getLast?_cons_cons]
      exact this

/-- What the code takes for diverging does not complete. -/
theorem diverges_evals {cx : Cx} {en : Ident} : ∀ n : Node, isUnreachable cx n = true →
    tame (cx.marker :: cx.markers) n = true → ∀ f x s, NoVal (eval M en f n x s) := by
  apply Node.strongInd
  rintro ⟨k, as, ks⟩ ih hu ht f x s
  rw [tame, Bool.and_eq_true, Bool.and_eq_true] at ht
  obtain ⟨⟨ha, hk⟩, hks⟩ := ht
  have hat : (anyEmptyAttr as NEVER || anyAttr as NAME) = false := by
    rw [Bool.or_eq_false_iff]
    unfold anyEmptyAttr anyAttr
    rw [List.any_eq_false, List.any_eq_false]
    simp only [List.all_eq_true, Bool.and_eq_true, Bool.not_eq_true'] at ha
    refine ⟨fun a h => ?_, fun a h => ?_⟩
    · have := (ha a h).1
      rw [named_iff] at this
      simp [Attr.isEmpty, NEVER, this]
    · have := (ha a h).2
      rw [named_iff] at this
      simp [NAME, this]
  have hlast : ∀ l : List Node, sizeOf l ≤ sizeOf ks → (∀ n ∈ l, tame (cx.marker :: cx.markers) n = true) →
      endsInItem l = false → isUnreachableLast cx l = true →
      ∃ n, l.getLast? = some n ∧ ∀ x s, NoVal (eval M en f n x s) := by
    intro l
    induction l with
    | nil => intro _ _ _ h; cases h
    | cons a l ihl =>
      intro hsz htm hei hul
      cases l with
      | cons b l =>
        obtain ⟨n, h1, h2⟩ := ihl (by simp only [List.cons.sizeOf_spec] at hsz ⊢; omega)
          (fun n hn => htm n (by simp [hn])) (by simpa [endsInItem, List.getLast?_cons_cons] using hei)
          (by rw [isUnreachableLast] at hul; exact hul)
        exact ⟨n, by rw [List.getLast?_cons_cons]; exact h1, h2⟩
      | nil =>
        refine ⟨a, rfl, fun x s => ?_⟩
        have hta := htm a (by simp)
        rw [isUnreachableLast.eq_def] at hul
        split at hul
        · rename_i heq; cases heq
        · rename_i semi as' e heq
          cases heq
          rw [tame, Bool.and_eq_true, Bool.and_eq_true] at hta
          have he := ih e (by simp only [List.cons.sizeOf_spec, Node.mk.sizeOf_spec] at hsz ⊢; omega) hul
            (by simpa [hidesCode, tameL] using hta.2) f
          rw [eval]
          simp only [node, evalL, kid, List.getElem?_cons_zero]
          split
          · exact noVal_andThen (he _ _)
          · exact he _ _
        · rename_i p as' e es heq
          cases heq
          rw [tame, Bool.and_eq_true, Bool.and_eq_true] at hta
          have he := ih e (by simp only [List.cons.sizeOf_spec, Node.mk.sizeOf_spec] at hsz ⊢; omega) hul
            (by have := hta.2; rw [tameL, Bool.or_eq_true, Bool.and_eq_true] at this
                exact (this.resolve_left (by simp [hidesCode])).1) f
          rw [eval]
          simp only [node, evalL, first, List.isEmpty_cons, Bool.false_eq_true, if_false, kid,
            List.getElem?_cons_zero]
          exact noVal_andThen (noVal_andThen (he _ _))
        · rename_i heq
          cases heq
          simp [endsInItem] at hei
        · rename_i p t as' ks' heq
          cases heq
          rw [tame, Bool.and_eq_true, Bool.and_eq_true] at hta
          rw [eval]
          simp only [node]
          rw [if_pos (panics_of hul hta.1.2)]
          intro v s h; cases h
        · cases hul
        · rename_i heq; cases heq
  have harms : ∀ l : List Node, sizeOf l ≤ sizeOf ks → (∀ n ∈ l, tame (cx.marker :: cx.markers) n = true) →
      isUnreachableArms cx l = true → ∀ d ∈ evalL M en f l, ∀ x s, NoVal (d x s) := by
    intro l
    induction l with
    | nil => intro _ _ _ d hd; cases hd
    | cons a l ihl =>
      intro hsz htm hul d hd x s
      have hta := htm a (by simp)
      have hrec : isUnreachableArms cx l = true → ∀ d ∈ evalL M en f l, ∀ x s, NoVal (d x s) :=
        ihl (by simp only [List.cons.sizeOf_spec] at hsz ⊢; omega) (fun n hn => htm n (by simp [hn]))
      have hnv : ∀ {as : List Attr}, (as.all fun a => !named "never" a && !named "auto_enum" a) = true →
          anyEmptyAttr as NEVER = false := by
        intro as h
        unfold anyEmptyAttr
        rw [List.any_eq_false]
        simp only [List.all_eq_true, Bool.and_eq_true, Bool.not_eq_true'] at h
        intro a ha
        have := (h a ha).1
        rw [named_iff] at this
        simp [Attr.isEmpty, NEVER, this]
      rw [isUnreachableArms.eq_def] at hul
      rw [evalL] at hd
      split at hul
      · rename_i heq; cases heq
      · rename_i p as' b ns heq
        cases heq
        rw [tame, Bool.and_eq_true, Bool.and_eq_true] at hta
        rw [Bool.and_eq_true, hnv hta.1.1, Bool.false_or] at hul
        rcases List.mem_cons.mp hd with rfl | hd
        · have he := ih b (by simp only [List.cons.sizeOf_spec, Node.mk.sizeOf_spec] at hsz ⊢; omega) hul.1
            (by simpa [hidesCode, tameL] using hta.2) f
          rw [eval]
          simp only [node, evalL, arm]
          split
          · exact he _ _
          · intro v s h; cases h
        · exact hrec hul.2 d hd x s
      · rename_i p as' g b ns heq
        cases heq
        rw [tame, Bool.and_eq_true, Bool.and_eq_true] at hta
        rw [Bool.and_eq_true, hnv hta.1.1, Bool.false_or] at hul
        rcases List.mem_cons.mp hd with rfl | hd
        · have he := ih b (by simp only [List.cons.sizeOf_spec, Node.mk.sizeOf_spec] at hsz ⊢; omega) hul.1
            (by have := hta.2; simp [hidesCode, tameL] at this; exact this.2) f
          rw [eval]
          simp only [node, evalL, arm]
          split
          · refine noVal_andThen' fun c s => ?_
            split
            · exact he _ _
            · intro v s h; cases h
          · intro v s h; cases h
        · exact hrec hul.2 d hd x s
      · cases hul
  rw [isUnreachable.eq_def] at hu
  dsimp only at hu
  rw [hat, Bool.and_false, Bool.false_or] at hu
  rw [eval]
  split at hu
  · rename_i l
    have hei : endsInItem ks = false := by
      cases l <;> simp [tameKind] at hk
      · exact hk
      · exact hk.2
    obtain ⟨n, h1, h2⟩ := hlast ks (by omega) (tameL_mem (by simpa [hidesCode] using hks)) hei hu
    simp only [node]
    have h3 := noVal_stmts (M := M) (evalL_getLast (M := M) (en := en) (f := f) h1) h2 s
    cases l with
    | none => rw [labelled_none]; exact h3
    | some l =>
      refine noVal_labelled h3 (breaks_stmts (fun d hd => ?_) s)
      obtain ⟨n, hn, rfl⟩ := mem_evalL hd
      intro x s l' v s' he
      obtain ⟨as', hm⟩ := breaks_visible n x s l' v s' he
      rintro rfl
      simp only [tameKind, Bool.and_eq_true, Bool.not_eq_true'] at hk
      have := hk.1
      unfold breaksTo at this
      rw [List.any_eq_false] at this
      exact this _ (visibleL_mem hn hm) (by simp)
  · have hei : endsInItem ks = false := by simpa [tameKind] using hk
    obtain ⟨n, h1, h2⟩ := hlast ks (by omega) (tameL_mem (by simpa [hidesCode] using hks)) hei hu
    simp only [node]
    exact noVal_stmts (M := M) (evalL_getLast (M := M) (en := en) (f := f) h1) h2 s
  · simp only [node]
    split
    · intro v s h; cases h
    · exact noVal_andThen' fun v s => by intro v s h; cases h
  · intro v s h; cases h
  · simp only [node]
    split
    · intro v s h; cases h
    · exact noVal_andThen' fun v s => by intro v s h; cases h
  · simp only [node]
    rw [if_pos (panics_of hu hk)]
    intro v s h; cases h
  · rename_i sc arms
    simp only [node, evalL, List.tail_cons]
    refine noVal_andThen' fun v s => noVal_arms (harms arms ?_ ?_ hu) s
    · simp only [List.cons.sizeOf_spec]; omega
    · intro n hn
      exact tameL_mem (by simpa [hidesCode] using hks) n (by simp [hn])
  · rename_i e
    simp only [node, evalL, kid, List.getElem?_cons_zero]
    intro v s' he
    unfold andThen at he
    split at he
    · rename_i v' s'' h'
      dsimp only at he
      rw [if_pos (fails_of hu h')] at he
      cases he
    · rename_i h1; exact absurd he (h1 _ _)
  · rename_i m e es
    simp only [node, evalL, first, List.isEmpty_cons, Bool.false_eq_true, if_false, kid,
      List.getElem?_cons_zero]
    refine noVal_andThen (ih e ?_ hu ?_ f _ _)
    · simp only [List.cons.sizeOf_spec, Node.mk.sizeOf_spec]; omega
    · exact tameL_mem (by simpa [hidesCode] using hks) e (by simp)
  · rename_i e
    simp only [node, evalL, kid, List.getElem?_cons_zero]
    refine ih e ?_ hu ?_ f _ _
    · simp only [List.cons.sizeOf_spec, Node.mk.sizeOf_spec]; omega
    · exact tameL_mem (by simpa [hidesCode] using hks) e (by simp)
  · cases hu

/-- What counts as diverging in the specification is what counts as diverging in the code. -/
theorem exempt_of_diverges {m : String} : ∀ n : Node, diverges m n = true → exempt m n = true := by
  apply Node.strongInd
  rintro ⟨k, as, ks⟩ ih h
  have hlast : ∀ l : List Node, sizeOf l ≤ sizeOf ks → divergesLast m l = true → exemptLast m l = true := by
    intro l
    induction l with
    | nil => intro _ h; cases h
    | cons a l ihl =>
      intro hsz hd
      cases l with
      | cons b l =>
        rw [exemptLast]
        rw [divergesLast] at hd
        exact ihl (by simp only [List.cons.sizeOf_spec] at hsz ⊢; omega) hd
      | nil =>
        rw [divergesLast.eq_def] at hd
        rw [exemptLast.eq_def]
        split at hd <;> first
          | (rename_i heq; cases heq; done)
          | (rename_i heq
             cases heq
             first
               | exact ih _ (by simp only [List.cons.sizeOf_spec, Node.mk.sizeOf_spec] at hsz ⊢; omega) hd
               | exact hd
               | rfl)
          | cases hd
  have harms : ∀ l : List Node, sizeOf l ≤ sizeOf ks → divergesArms m l = true → exemptArms m l = true := by
    intro l
    induction l with
    | nil => intro _ h; rfl
    | cons a l ihl =>
      intro hsz hd
      rw [divergesArms.eq_def] at hd
      rw [exemptArms.eq_def]
      split at hd <;> first
        | (rename_i heq; cases heq; done)
        | (rename_i heq
           cases heq
           rw [Bool.and_eq_true, Bool.or_eq_true] at hd ⊢
           exact ⟨hd.1.imp id (ih _ (by simp only [List.cons.sizeOf_spec, Node.mk.sizeOf_spec] at hsz ⊢; omega)),
             ihl (by simp only [List.cons.sizeOf_spec] at hsz ⊢; omega) hd.2⟩)
        | cases hd
  rw [diverges.eq_def] at h
  rw [exempt.eq_def]
  dsimp only at h ⊢
  rw [Bool.or_eq_true] at h
  rcases h with h | h
  · rw [Bool.and_eq_true] at h
    simp [h.1, h.2]
  · rw [Bool.or_eq_true]
    right
    split at h
    · exact hlast _ (by omega) h
    · exact hlast _ (by omega) h
    · rfl
    · rfl
    · rfl
    · exact h
    · exact harms _ (by simp only [List.cons.sizeOf_spec]; omega) h
    · exact h
    · exact ih _ (by simp only [List.cons.sizeOf_spec, Node.mk.sizeOf_spec]; omega) h
    · exact ih _ (by simp only [List.cons.sizeOf_spec, Node.mk.sizeOf_spec]; omega) h
    · cases h

/-- Some context of an outermost attribute with the marker `m`. -/
def plainCx (m : String) : Cx :=
  { ident := "", variants := [], marker := m, markers := [], root := true, hasChild := false,
    mode := .default, lastMode := .default, errs := [], args := [], traits := [], panics := [], log := [] }

theorem exempt_evals {m : String} {en : Ident} {n : Node} (h : exempt m n = true) (ht : tame [m] n = true) :
    NeverCompletes M en n := by
  have h' : isUnreachable (plainCx m) n = true := by rw [exempt_eq rfl]; exact h
  intro f x s v s'
  exact diverges_evals n h' ht f x s v s'

theorem diverges_never {m : String} {en : Ident} {n : Node} (h : diverges m n = true)
    (ht : tame [m] n = true) : NeverCompletes M en n :=
  exempt_evals (exempt_of_diverges n h) ht

theorem abrupt_never {m : String} {en : Ident} {n : Node} (h : abrupt m n = true) :
    NeverCompletes M en n := by
  unfold abrupt at h
  rw [Bool.and_eq_true] at h
  obtain ⟨ht, h⟩ := h
  split at h
  · rename_i p as b
    rw [tame, Bool.and_eq_true] at ht
    have hb := diverges_never (M := M) (en := en) h (by simpa [hidesCode, tameL] using ht.2)
    intro f x s v s'
    rw [eval]
    simp only [node, evalL, arm]
    split
    · exact hb f _ _ v s'
    · simp
  · rename_i p as g b
    rw [tame, Bool.and_eq_true] at ht
    have hb := diverges_never (M := M) (en := en) h
      (by have := ht.2; simp [hidesCode, tameL] at this; exact this.2)
    intro f x s v s'
    rw [eval]
    simp only [node, evalL, arm]
    split
    · have : NoVal (andThen (eval M en f g (unit M) (M.test p x s).2) fun c s =>
          if M.truth c s = true then eval M en f b (unit M) s else some (.miss, s)) := by
        refine noVal_andThen' fun c s => ?_
        split
        · exact fun v s' => hb f _ _ v s'
        · intro v s h; cases h
      exact this v s'
    · simp
  · rename_i as ss
    rw [Bool.and_eq_true, Bool.not_eq_true'] at h
    have hb := diverges_never (M := M) (en := en) (m := m) (n := .mk .eUnsafe [] ss)
      (by rw [diverges.eq_def]; simpa using .inr h.1)
      (by rw [tame, Bool.and_eq_true, Bool.and_eq_true]
          rw [tame, Bool.and_eq_true, Bool.and_eq_true] at ht
          exact ⟨⟨rfl, by simp [tameKind, h.2]⟩, by simpa [hidesCode] using ht.2⟩)
    intro f x s v s'
    exact hb f x s v s'
  · exact diverges_never h ht

theorem inert_code {J : Job} {k : Kind} {ks : List Node} (h : inert J k ks = true) : inertCode J k ks := by
  unfold inert at h
  simp only [Bool.and_eq_true, Bool.not_eq_true', List.all_eq_true, Bool.or_eq_true, bne_iff_ne, ne_eq] at h
  refine ⟨fun l hl p t he => ?_, h.1.2, fun hk hr l hl => ?_⟩
  · have := h.1.1 l hl
    rw [he] at this
    simpa [callsMacro] using this
  · rcases h.2 with (h2 | h2) | h2
    · exact absurd hk h2
    · rw [hr] at h2; cases h2
    · exact h2 l hl

theorem comparable_covered {J : Job} : ∀ n r ts, comparable J r n = true → Covered M J ts r n := by
  refine Node.ind (P := fun n => ∀ r ts, comparable J r n = true → Covered M J ts r n) ?_
  intro k as ks ih r ts h
  have hl : ∀ (l : List Node) (rs : Nat → Role) (tss : Nat → List Target), (∀ n ∈ l, n ∈ ks) →
      comparableL J rs l = true → CoveredL M J tss rs l := by
    intro l
    induction l with
    | nil => intro _ _ _ _; rw [CoveredL]; trivial
    | cons a l ihl =>
      intro rs tss hm h
      rw [comparableL, Bool.and_eq_true] at h
      rw [CoveredL]
      exact ⟨ih a (hm a List.mem_cons_self) _ _ h.1, ihl _ _ (fun n hn => hm n (List.mem_cons_of_mem _ hn)) h.2⟩
  rw [comparable] at h
  simp only [Bool.and_eq_true, Bool.or_eq_true, Bool.not_eq_true', beq_iff_eq, bne_iff_ne, ne_eq] at h
  obtain ⟨⟨⟨⟨⟨⟨h1, h2⟩, h3⟩, h4⟩, h5⟩, h6⟩, h7⟩ := h
  rw [Covered]
  refine ⟨h1, fun hr hp => ?_, fun _ hn => ?_, fun _ _ => h3, fun p t hk => ?_, fun _ => h4, fun hf => ?_,
    fun hh hf => ?_⟩
  · rcases h2 with (h2 | h2) | h2
    · exact absurd h2 hr
    · exact absurd hp h2
    · exact abrupt_never h2
  · rw [h3] at hn; cases hn
  · subst hk; simpa [callsMacro] using h5
  · rw [hf] at h6
    exact inert_code (h6.resolve_left (by simp))
  · rw [hh, hf] at h7
    exact hl ks _ _ (fun n hn => hn) (h7.resolve_left (by simp))

end

end AutoEnums
