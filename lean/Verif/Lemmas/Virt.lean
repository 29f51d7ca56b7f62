import Verif.Lemmas.PendChild

/-! # The kids that are visited

When a node is visited its kids may have been wrapped.  `vkids` are the wrapped kids of the original
node, as if they had been written that way. -/

namespace AutoEnums

open Spec

/-! ## Targets -/

theorem hits_cons (l : Option String) (b c : Bool) (ts : List Target) :
    hits (⟨l, b, c⟩ :: ts) = push l b c (hits ts) := by
  funext x
  cases x <;> rfl

theorem hits_none : ∀ ts : List Target, hits (ts.map ({ · with ours := false })) = noHit := by
  intro ts
  induction ts with
  | nil => funext x; rfl
  | cons t ts ih =>
    obtain ⟨l, b, c⟩ := t
    rw [List.map_cons, hits_cons, ih]
    funext x
    cases x <;> simp [push, noHit]

theorem hits_through (ts : List Target) (k : Kind) (as : List Attr) :
    hits (through ts k as) = thr (hits ts) k as := by
  unfold through thr
  split
  · exact hits_none ts
  · rfl

theorem kidH_hits (ts : List Target) (r : Role) (k : Kind) (as : List Attr) (i : Nat) :
    kidH (hits ts) r k as i = hits (kidTargets ts r k as i) := by
  unfold kidH kidTargets
  split <;> simp only [← hits_through, ← hits_cons]
  · funext x; rfl
  · funext x; rfl
  · split <;> rfl

/-! ## Virtual kids -/

def ourReturn (J : Job) (w : Where) (as : List Attr) (ks : List Node) : Bool :=
  J.returns && !w.closure && !marked "never" as && !isCallOf J.marker ks

def ourTry (J : Job) (w : Where) (as : List Attr) (ks : List Node) : Bool :=
  J.tries && !w.closure && !w.tryBlock && !marked "never" as && !isCallOf J.marker ks

/-- The arms of a desugared `?`. -/
def tryTail (J : Job) : List Node := (tryMatch [] J.en "" (.mk .eTuple [] [])).kids.tail

def vkind (J : Job) (w : Where) (k : Kind) (as : List Attr) (ks : List Node) : Kind :=
  if k = .eTry ∧ ourTry J w as ks = true then .eMatch else k

def vkids (J : Job) (w : Where) (ts : List Target) (r : Role) (k : Kind) (as : List Attr)
    (ks : List Node) : List Node :=
  match k with
  | .eReturn => if ourReturn J w as ks then wrapHead J ks else ks
  | .eBreak l => if hits (through ts k as) l && !isCallOf J.marker ks then wrapHead J ks else ks
  | .eTry => if ourTry J w as ks then ks ++ tryTail J else ks
  | .arm _ => if r = .branch then wrapLast J ks else ks
  | .block | .eBlock _ => if r = .branch then wrapAll J ks else ks
  | _ => ks

/-! ### Treating wrapped trees -/

theorem strip_nil : strip [] = [] := rfl

theorem treat_ctor (J : Job) (w : Where) (ts : List Target) (e : Node) :
    treat J w ts .plain (ctor J [] e) = ctor J [] (treat J w ts .plain e) := by
  have hr : ∀ k ks, role J .plain k [] ks = .plain := by
    intro k ks; simp [role, marked]
  unfold ctor construct
  rw [treat, hr]
  simp only [assemble, hidesCode, treatL, treat, carries, isExpression, strip_nil, kidTargets,
    kidRole, through, marked, List.any_nil, Bool.and_false, Bool.false_eq_true, if_false,
    Where.enter, ite_self]

theorem treatL_plain_append (J : Job) (w : Where) (ts : List Target) : ∀ (l l' : List Node),
    treatL J w (fun _ => ts) (fun _ => .plain) (l ++ l') =
      treatL J w (fun _ => ts) (fun _ => .plain) l ++ treatL J w (fun _ => ts) (fun _ => .plain) l' := by
  intro l
  induction l with
  | nil => intro l'; rfl
  | cons a l ih => intro l'; rw [List.cons_append, treatL, ih, treatL, List.cons_append]

theorem treatL_wrapHead (J : Job) (w : Where) (ts : List Target) (l : List Node) :
    treatL J w (fun _ => ts) (fun _ => .plain) (wrapHead J l) =
      wrapHead J (treatL J w (fun _ => ts) (fun _ => .plain) l) := by
  cases l with
  | nil =>
    simp only [wrapHead, treatL, treat_ctor]
    congr 2
  | cons a l => simp only [wrapHead, treatL, treat_ctor]

theorem treatL_wrapLast (J : Job) (w : Where) (ts : List Target) : ∀ (l : List Node),
    treatL J w (fun _ => ts) (fun _ => .plain) (wrapLast J l) =
      wrapLast J (treatL J w (fun _ => ts) (fun _ => .plain) l) := by
  intro l
  induction l with
  | nil => rfl
  | cons a l ih =>
    cases l with
    | nil => simp only [wrapLast, treatL, treat_ctor]
    | cons b l =>
      simp only [wrapLast, treatL]
      simp only [treatL] at ih
      rw [ih]

theorem treatL_wrapAll (J : Job) (w : Where) (ts : List Target) (l : List Node) :
    treatL J w (fun _ => ts) (fun _ => .plain) (wrapAll J l) =
      wrapAll J (treatL J w (fun _ => ts) (fun _ => .plain) l) := by
  have hr : ∀ k ks, role J .plain k [] ks = .plain := by
    intro k ks; simp [role, marked]
  have hb : treat J w ts .plain (.mk (.eBlock none) [] l) =
      .mk (.eBlock none) [] (treatL J w (fun _ => ts) (fun _ => .plain) l) := by
    rw [treat, hr]
    simp [assemble, hidesCode, strip_nil, kidTargets, kidRole, through, marked, Where.enter]
  simp only [wrapAll, treatL]
  rw [treat, hr]
  simp [assemble, hidesCode, carries, isExpression, treatL, kidTargets, kidRole, through, marked,
    Where.enter, treat_ctor, hb]

theorem treatL_tryTail (J : Job) (w : Where) (ts : List Target) (h : J.returns = false) :
    treatL J w (fun _ => ts) (fun _ => .plain) (tryTail J) = tryTail J := by
  have hr : ∀ k ks, role J .plain k [] ks = .plain := by
    intro k ks; simp [role, marked]
  have hm : ∀ s, marked s [] = false := fun _ => rfl
  have hc : ∀ (w : Where) ts e, treat J w ts .plain (construct [] J.en "" e) =
      construct [] J.en "" (treat J w ts .plain e) := fun w ts e => treat_ctor J w ts e
  simp only [tryTail, tryMatch, Node.kids, List.tail_cons, treatL, treat, hr, assemble, hidesCode,
    carries, isExpression, strip_nil, kidTargets, kidRole, through, Bool.and_false, hm, hc, h,
    Bool.false_eq_true, if_false, Where.enter, ite_self, Bool.false_and, false_and, List.map_cons,
    List.map_nil, reduceCtorEq]

theorem role_arm_branch {J : Job} {r : Role} {p : String} {as : List Attr} {ks : List Node}
    (h : role J r (.arm p) as ks = .branch) : marked "nested" as = false := by
  unfold role at h
  split at h
  · simp at h
  · cases r with
    | branch =>
      dsimp only at h
      split at h
      · simp at h
      · rename_i hs
        simp only [skipsArm, Bool.or_eq_true, not_or, Bool.not_eq_true] at hs
        have := hs.1.2
        simp only [hasNested, visibleL, visible, carries, List.any_append, List.any_cons,
          Bool.true_and, Bool.or_eq_false_iff] at this
        exact this.1.1
    | result => dsimp only at h; split at h <;> simp at h
    | plain => dsimp only at h; split at h <;> simp at h

/-- What becomes of a node, by way of its virtual kids. -/
theorem virt_treat {J : Job} {w : Where} {ts : List Target} {r : Role} {k : Kind} {as : List Attr}
    {ks : List Node} (hk : hidesCode k = false) (hg : kidsOk k ks = true)
    (hJ : J.tries = true → J.returns = false) :
    treat J w ts r (.mk k as ks) = .mk (vkind J (w.enter k) k as ks)
      (if carries k then strip as else as)
      (treatL J (w.enter k) (fun i => kidTargets ts (role J r k as ks) k as i)
        (fun i => kidRole (role J r k as ks) k as ks.length i)
        (vkids J (w.enter k) ts (role J r k as ks) k as ks)) := by
  rw [treat, hk]
  have hne : k ≠ .eTry → vkind J (w.enter k) k as ks = k := by intro h; simp [vkind, h]
  generalize hr : role J r k as ks = r'
  cases k with
  | eReturn =>
    rw [hne (by simp)]
    simp only [assemble, vkids, kidTargets, kidRole, Bool.false_eq_true, if_false]
    by_cases ho : ourReturn J (w.enter .eReturn) as ks = true
    · have ho' := ho
      unfold ourReturn at ho'
      rw [if_pos ho', if_pos ho, treatL_wrapHead]
    · have ho' := ho
      unfold ourReturn at ho'
      rw [if_neg ho', if_neg ho]
  | eBreak l =>
    rw [hne (by simp)]
    simp only [assemble, vkids, kidTargets, kidRole]
    split
    · rw [treatL_wrapHead]; simp
    · simp
  | eTry =>
    obtain ⟨e, rfl⟩ : ∃ e, ks = [e] := by
      unfold kidsOk at hg
      split at hg <;> simp_all
    simp only [assemble, vkids, vkind, kidTargets, kidRole, treatL, Bool.false_eq_true, if_false,
      true_and]
    by_cases ht : ourTry J (w.enter .eTry) as [e] = true
    · have ht' := ht
      unfold ourTry at ht'
      rw [if_pos ht', if_pos ht, if_pos ht, treatL_plain_append, treatL_tryTail _ _ _ (hJ _)]
      · rfl
      · simp only [Bool.and_eq_true] at ht'; exact ht'.1.1.1.1
    · have ht' := ht
      unfold ourTry at ht'
      rw [if_neg ht', if_neg ht, if_neg ht]
      rfl
  | arm p =>
    rw [hne (by simp)]
    simp only [assemble, vkids, kidTargets]
    by_cases hb : r' = .branch
    · subst hb
      simp only [if_true, kidRole, role_arm_branch hr, Bool.false_eq_true, false_and, if_false,
        treatL_wrapLast]
    · simp [hb]
  | block =>
    rw [hne (by simp)]
    by_cases hb : r' = .branch
    · subst hb
      simp only [assemble, vkids, kidTargets, kidRole, if_true, if_false, Bool.false_eq_true,
        treatL_wrapAll]
    · simp [assemble, vkids, hb]
  | eBlock l =>
    rw [hne (by simp)]
    by_cases hb : r' = .branch
    · subst hb
      cases l <;> simp only [assemble, vkids, kidTargets, kidRole, if_true, reduceCtorEq, false_and,
        if_false, Bool.false_eq_true, treatL_wrapAll]
    · simp [assemble, vkids, hb]
  | eMacro => simp [hidesCode] at hk
  | _ => rw [hne (by simp)]; simp [assemble, vkids]

/-! ### Pending passes of wrapped trees -/

theorem pend_ctor (J : Job) (H : Hit) (e : Node) :
    pend J H .plain (ctor J [] e) = ctor J [] (pend J H .plain e) := by
  unfold ctor construct
  rw [pend_plain, kidsP_plain _ _ _ _ _ _ (by simp)]
  simp only [hidesCode, Bool.false_eq_true, if_false, pendL, kidH, thr, marked, List.any_nil,
    Bool.and_false]
  rw [pend_plain, kidsP_plain _ _ _ _ _ _ (by simp)]
  simp [hidesCode, pendL]

theorem pendL_plain_append (J : Job) (H : Hit) : ∀ (l l' : List Node),
    pendL J (fun _ => H) (fun _ => .plain) (l ++ l') =
      pendL J (fun _ => H) (fun _ => .plain) l ++ pendL J (fun _ => H) (fun _ => .plain) l' := by
  intro l
  induction l with
  | nil => intro l'; rfl
  | cons a l ih => intro l'; rw [List.cons_append, pendL, ih, pendL, List.cons_append]

theorem pendL_wrapHead (J : Job) (H : Hit) (l : List Node) :
    pendL J (fun _ => H) (fun _ => .plain) (wrapHead J l) =
      wrapHead J (pendL J (fun _ => H) (fun _ => .plain) l) := by
  cases l with
  | nil =>
    simp only [wrapHead, pendL, pend_ctor]
    congr 2
  | cons a l => simp only [wrapHead, pendL, pend_ctor]

theorem pendL_wrapLast (J : Job) (H : Hit) : ∀ (l : List Node),
    pendL J (fun _ => H) (fun _ => .plain) (wrapLast J l) =
      wrapLast J (pendL J (fun _ => H) (fun _ => .plain) l) := by
  intro l
  induction l with
  | nil => rfl
  | cons a l ih =>
    cases l with
    | nil => simp only [wrapLast, pendL, pend_ctor]
    | cons b l =>
      simp only [wrapLast, pendL]
      simp only [pendL] at ih
      rw [ih]

theorem pendL_wrapAll (J : Job) (H : Hit) (l : List Node) :
    pendL J (fun _ => H) (fun _ => .plain) (wrapAll J l) =
      wrapAll J (pendL J (fun _ => H) (fun _ => .plain) l) := by
  have hb : pend J H .plain (.mk (.eBlock none) [] l) =
      .mk (.eBlock none) [] (pendL J (fun _ => H) (fun _ => .plain) l) := by
    rw [pend_plain, kidsP_plain _ _ _ _ _ _ (by simp)]
    simp [hidesCode, kidH, thr, marked]
  simp only [wrapAll, pendL]
  rw [pend_plain, kidsP_plain _ _ _ _ _ _ (by simp)]
  simp [hidesCode, pendL, kidH, thr, marked, pend_ctor, hb, isExpression]

theorem pendL_tryTail (J : Job) (H : Hit) :
    pendL J (fun _ => H) (fun _ => .plain) (tryTail J) = tryTail J := by
  have h : ∀ n ∈ tryTail J, pend J H .plain n = n := by
    intro n hn
    rw [pend_nobreak n H noHit .plain, pend_id]
    have h : ((visible n).all fun x => !isBreak x.1) = true := by
      simp only [tryTail, tryMatch, Node.kids, List.tail_cons, List.mem_cons, List.not_mem_nil,
        or_false] at hn
      rcases hn with rfl | rfl <;> rfl
    simpa using h
  revert h
  generalize tryTail J = l
  induction l with
  | nil => intro; rfl
  | cons a l ih =>
    intro h
    rw [pendL, h a (by simp), ih fun n hn => h n (by simp [hn])]

/-- What is pending, by way of the virtual kids. -/
theorem virt_pend {J : Job} {w : Where} {ts : List Target} {r r0 : Role} {k : Kind} {as : List Attr}
    {ks : List Node} (hr : role J r0 k as ks = r)
    (h1 : k = .eReturn → ourReturn J w as ks = false) (h2 : k = .eTry → ourTry J w as ks = false) :
    kidsP J (hits ts) r k as ks (pendL J (fun i => hits (kidTargets ts r k as i))
        (fun i => kidRole r k as ks.length i) ks) =
      pendL J (fun i => hits (kidTargets ts r k as i)) (fun i => kidRole r k as ks.length i)
        (vkids J w ts r k as ks) := by
  cases k with
  | eReturn => simp [kidsP, vkids, h1 rfl]
  | eBreak l =>
    simp only [kidsP, vkids, kidTargets, kidRole, ← hits_through]
    split
    · rw [pendL_wrapHead]
    · rfl
  | eTry => simp [kidsP, vkids, h2 rfl]
  | arm p =>
    simp only [kidsP, vkids, kidTargets]
    by_cases hb : r = .branch
    · subst hb
      simp only [if_true, kidRole, role_arm_branch hr, Bool.false_eq_true, false_and, if_false,
        pendL_wrapLast]
    · simp [hb]
  | block =>
    simp only [kidsP, vkids, kidTargets, kidRole]
    split
    · rw [pendL_wrapAll]
    · rfl
  | eBlock l =>
    by_cases hb : r = .branch
    · subst hb
      cases l <;> simp only [kidsP, vkids, kidTargets, kidRole, if_true, reduceCtorEq, false_and,
        if_false, pendL_wrapAll]
    · simp [kidsP, vkids, hb]
  | _ => rfl

/-! ## Code in order -/

/-- What is assumed about a tree. -/
structure Fine (J : Job) (seen : List String) (r : Role) (o : Node) : Prop where
  free : hasAttr NAME o = false
  gram : grammatical o = true
  labels : labelsOk seen o = true
  once : Spec.once J r o = true

structure FineL (J : Job) (seen : List String) (ρ : Nat → Role) (l : List Node) : Prop where
  free : hasAttrL NAME l = false
  gram : grammaticalL l = true
  labels : labelsOkL seen l = true
  once : onceL J ρ l = true

theorem fineL_cons {J : Job} {seen : List String} {ρ : Nat → Role} {o : Node} {l : List Node} :
    FineL J seen ρ (o :: l) ↔ Fine J seen (ρ 0) o ∧ FineL J seen (fun i => ρ (i + 1)) l := by
  constructor
  · rintro ⟨h1, h2, h3, h4⟩
    simp only [hasAttrL_cons, Bool.or_eq_false_iff] at h1
    simp only [grammaticalL, Bool.and_eq_true] at h2
    simp only [labelsOkL, Bool.and_eq_true] at h3
    simp only [onceL, Bool.and_eq_true] at h4
    exact ⟨⟨h1.1, h2.1, h3.1, h4.1⟩, ⟨h1.2, h2.2, h3.2, h4.2⟩⟩
  · rintro ⟨⟨h1, h2, h3, h4⟩, ⟨g1, g2, g3, g4⟩⟩
    exact ⟨by simp [h1, g1], by simp [grammaticalL, h2, g2], by simp [labelsOkL, h3, g3],
      by simp [onceL, h4, g4]⟩

theorem fineL_nil {J : Job} {seen : List String} {ρ : Nat → Role} : FineL J seen ρ [] :=
  ⟨rfl, rfl, rfl, rfl⟩

theorem fineL_append {J : Job} {seen : List String} : ∀ {l l' : List Node},
    FineL J seen (fun _ => .plain) l → FineL J seen (fun _ => .plain) l' →
    FineL J seen (fun _ => .plain) (l ++ l') := by
  intro l
  induction l with
  | nil => intro l' _ h; exact h
  | cons a l ih =>
    intro l' h h'
    rw [fineL_cons] at h
    exact fineL_cons.mpr ⟨h.1, ih h.2 h'⟩

/-- The labels in scope in the kids. -/
def kidSeen (k : Kind) (seen : List String) : List String :=
  match k with
  | .eClosure _ | .eAsync => []
  | _ => (labelOf k).toList ++ seen

theorem Fine.kids {J : Job} {seen : List String} {r : Role} {k : Kind} {as : List Attr}
    {ks : List Node} (h : Fine J seen r (.mk k as ks)) (hk : hidesCode k = false) :
    FineL J (kidSeen k seen) (fun i => kidRole (role J r k as ks) k as ks.length i) ks := by
  obtain ⟨h1, h2, h3, h4⟩ := h
  rw [hasAttr_mk, Bool.or_eq_false_iff, ← hidesCode_eq, hk] at h1
  have h2 := (grammatical_mk h2 hk).2
  rw [labelsOk.eq_def] at h3
  dsimp only at h3
  rw [hk] at h3
  simp only [Bool.false_or, Bool.and_eq_true] at h3
  rw [Spec.once, hk] at h4
  simp only [Bool.false_or, Bool.and_eq_true] at h4
  refine ⟨by simpa using h1.2, h2, ?_, h4.2⟩
  have := h3.2
  unfold kidSeen
  exact this

theorem role_nil {J : Job} (k : Kind) (ks : List Node) : role J .plain k [] ks = .plain := by
  simp [role, marked]

/-- A node without attributes in no special role. -/
theorem fine_mk {J : Job} {seen : List String} {k : Kind} {ks : List Node}
    (hk : hidesCode k = false) (hg : kidsOk k ks = true) (hl : labelOf k = none)
    (hs : kidSeen k seen = seen) (hf : ∀ l p, k ≠ .eForLoop l p)
    (h : FineL J seen (fun _ => .plain) ks) : Fine J seen .plain (.mk k [] ks) := by
  obtain ⟨h1, h2, h3, h4⟩ := h
  refine ⟨?_, ?_, ?_, ?_⟩
  · rw [hasAttr_mk, h1]; simp [anyAttr]
  · rw [grammatical, hg, h2]; simp
  · rw [labelsOk.eq_def]
    dsimp only
    have h3' : labelsOkL (kidSeen k seen) ks = true := by rw [hs]; exact h3
    unfold kidSeen at h3'
    rw [Bool.and_eq_true, Bool.and_eq_true, Bool.or_eq_true]
    refine ⟨⟨by rw [hl], ?_⟩, .inr h3'⟩
    cases k <;> first | (exact absurd rfl (hf _ _)) | simp
  · rw [Spec.once, role_nil]
    have : ∀ i, kidRole .plain k [] ks.length i = .plain := by
      intro i
      cases k <;> simp [kidRole, marked] <;> (rename_i b; cases b <;> simp)
    simp [this, h4]

theorem fine_ctor {J : Job} {seen : List String} {e : Node} (he : isExprNode e = true)
    (h : Fine J seen .plain e) : Fine J seen .plain (ctor J [] e) := by
  refine fine_mk rfl ?_ rfl rfl (by simp) (fineL_cons.mpr ⟨?_, fineL_cons.mpr ⟨h, fineL_nil⟩⟩)
  · have : isExprNode (.mk (.ePath false (variantPath J.en "")) [] []) = true := rfl
    simp [kidsOk, he, this]
  · exact fine_mk rfl rfl rfl rfl (by simp) fineL_nil

theorem fine_wrapHead {J : Job} {seen : List String} {l : List Node}
    (he : l.all isExprNode = true) (h : FineL J seen (fun _ => .plain) l) :
    FineL J seen (fun _ => .plain) (wrapHead J l) := by
  cases l with
  | nil =>
    exact fineL_cons.mpr ⟨fine_ctor rfl (fine_mk rfl rfl rfl rfl (by simp) fineL_nil), fineL_nil⟩
  | cons a l =>
    rw [fineL_cons] at h
    simp only [List.all_cons, Bool.and_eq_true] at he
    exact fineL_cons.mpr ⟨fine_ctor he.1 h.1, h.2⟩

theorem fine_wrapLast {J : Job} {seen : List String} {l : List Node}
    (he : l.all isExprNode = true) (h : FineL J seen (fun _ => .plain) l) :
    FineL J seen (fun _ => .plain) (wrapLast J l) := by
  induction l with
  | nil => exact fineL_nil
  | cons a l ih =>
    rw [fineL_cons] at h
    simp only [List.all_cons, Bool.and_eq_true] at he
    cases l with
    | nil => exact fineL_cons.mpr ⟨fine_ctor he.1 h.1, fineL_nil⟩
    | cons b l => exact fineL_cons.mpr ⟨h.1, ih (by simp [he]) h.2⟩

theorem fine_wrapAll {J : Job} {seen : List String} {l : List Node}
    (he : (l.all fun n => isStatement n.kind) = true) (h : FineL J seen (fun _ => .plain) l) :
    FineL J seen (fun _ => .plain) (wrapAll J l) := by
  refine fineL_cons.mpr ⟨fine_mk rfl rfl rfl rfl (by simp) (fineL_cons.mpr ⟨fine_ctor rfl ?_,
    fineL_nil⟩), fineL_nil⟩
  exact fine_mk rfl (by simpa [kidsOk] using he) rfl rfl (by simp) h

theorem fine_tryTail {J : Job} {seen : List String} :
    FineL J seen (fun _ => .plain) (tryTail J) := by
  have p : ∀ b q, Fine J seen .plain (.mk (.ePath b q) [] []) := fun b q =>
    fine_mk rfl rfl rfl rfl (by simp) fineL_nil
  have c : ∀ e, Fine J seen .plain e → FineL J seen (fun _ => .plain) [e] := fun e h =>
    fineL_cons.mpr ⟨h, fineL_nil⟩
  refine fineL_cons.mpr ⟨fine_mk rfl rfl rfl rfl (by simp) (c _ (p _ _)), c _ ?_⟩
  refine fine_mk rfl rfl rfl rfl (by simp) (c _ (fine_mk rfl rfl rfl rfl (by simp) (c _ ?_)))
  refine fine_mk rfl rfl rfl rfl (by simp) (c _ (fine_mk rfl rfl rfl rfl (by simp) (c _ ?_)))
  refine fine_mk rfl rfl rfl rfl (by simp) (fineL_cons.mpr ⟨p _ _, c _ ?_⟩)
  exact fine_ctor rfl (p _ _)

/-- The virtual kids are in order. -/
theorem Fine.vkids {J : Job} {seen : List String} {r : Role} {k : Kind} {as : List Attr}
    {ks : List Node} (h : Fine J seen r (.mk k as ks)) (hk : hidesCode k = false) (w : Where)
    (ts : List Target) :
    FineL J (kidSeen k seen) (fun i => kidRole (role J r k as ks) k as ks.length i)
      (vkids J w ts (role J r k as ks) k as ks) := by
  have hK := h.kids hk
  have hg := (grammatical_mk h.gram hk).1
  generalize hr : role J r k as ks = r' at hK ⊢
  cases k with
  | eReturn =>
    simp only [kidRole] at hK ⊢
    simp only [AutoEnums.vkids]
    split
    · exact fine_wrapHead (by simp [kidsOk] at hg; simpa using hg.2) hK
    · exact hK
  | eBreak l =>
    simp only [kidRole] at hK ⊢
    simp only [AutoEnums.vkids]
    split
    · exact fine_wrapHead (by simp [kidsOk] at hg; simpa using hg.2) hK
    · exact hK
  | eTry =>
    simp only [kidRole] at hK ⊢
    simp only [AutoEnums.vkids]
    split
    · exact fineL_append hK fine_tryTail
    · exact hK
  | arm p =>
    simp only [AutoEnums.vkids]
    by_cases hb : r' = .branch
    · subst hb
      simp only [kidRole, role_arm_branch hr, Bool.false_eq_true, false_and, if_false] at hK ⊢
      exact fine_wrapLast (by simp only [kidsOk, Bool.and_eq_true] at hg; exact hg.2) hK
    · simpa [hb] using hK
  | block =>
    simp only [kidRole] at hK ⊢
    simp only [AutoEnums.vkids]
    split
    · exact fine_wrapAll (by simpa only [kidsOk] using hg) hK
    · exact hK
  | eBlock l =>
    simp only [AutoEnums.vkids]
    by_cases hb : r' = .branch
    · subst hb
      simp only [kidRole, reduceCtorEq, false_and, if_false] at hK ⊢
      exact fine_wrapAll (by simpa only [kidsOk] using hg) hK
    · simpa [hb] using hK
  | _ => exact hK

end AutoEnums
