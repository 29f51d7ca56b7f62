import Verif.Lemmas.TypingPay
import Verif.Lemmas.TypingBack
import Verif.Lemmas.EvalRun
import Verif.Lemmas.Nested

/-! # Lemmas: the types of the expansion of a whole input -/

namespace AutoEnums

open Spec

/-! ## No constructor is used twice -/

/-- The weight only counts items. -/
structure Items (w : Label → Nat) : Prop where
  attrs : ∀ k as as', w (k, as) = w (k, as')
  other : ∀ k as, (∀ i, k ≠ .sItem i) → w (k, as) = 0

theorem items_isDecl (en x : Ident) : Items (isDecl en x) := by
  refine ⟨fun k as as' => ?_, fun k as h => ?_⟩
  · cases k <;> try rfl
    rename_i i
    cases i <;> rfl
  · cases k <;> try rfl
    exact absurd rfl (h _)

section

variable {w : Label → Nat}

theorem Items.construct (h : Items w) (as : List Attr) (en v : Ident) (e : Node) :
    weigh w (construct as en v e) = weigh w e := by
  unfold Spec.construct
  simp [h.other .eCall as (by simp), h.other (.ePath false (variantPath en v)) [] (by simp)]

theorem Items.wrapHead (h : Items w) (J : Job) (l : List Node) : weighL w (wrapHead J l) = weighL w l := by
  cases l with
  | nil => simp [Spec.wrapHead, ctor, h.construct, h.other .eTuple [] (by simp)]
  | cons => simp [Spec.wrapHead, ctor, h.construct]

theorem Items.wrapLast (h : Items w) (J : Job) : ∀ l : List Node, weighL w (wrapLast J l) = weighL w l
  | [] => rfl
  | [e] => by simp [Spec.wrapLast, ctor, h.construct]
  | e :: e' :: es => by
    have := Items.wrapLast h J (e' :: es)
    simp [Spec.wrapLast] at this ⊢
    omega

theorem Items.wrapAll (h : Items w) (J : Job) (l : List Node) : weighL w (wrapAll J l) = weighL w l := by
  simp [Spec.wrapAll, ctor, h.construct, h.other (.sExpr false) [] (by simp), h.other (.eBlock none) [] (by simp)]

theorem Items.tryMatch (h : Items w) (as : List Attr) (en v : Ident) (e : Node) :
    weigh w (tryMatch as en v e) = weigh w e := by
  simp [Spec.tryMatch, h.construct]
  simp [h.other]

theorem Items.treat (h : Items w) {J : Job} : ∀ (n : Node) (wh : Where) (ts : List Target)
    (r : Role), weigh w (treat J wh ts r n) = weigh w n := by
  refine Node.ind (P := fun n => ∀ (wh : Where) (ts : List Target) (r : Role),
    weigh w (Spec.treat J wh ts r n) = weigh w n) ?_
  intro k as ks ih wh ts r
  rw [treat.eq_def]
  dsimp only
  have hl : ∀ (wh : Where) (tss : Nat → List Target) (rs : Nat → Role), ∀ l : List Node, (∀ n ∈ l, n ∈ ks) →
      weighL w (treatL J wh tss rs l) = weighL w l := by
    intro wh tss rs l
    induction l generalizing tss rs with
    | nil => intro _; rfl
    | cons a l ihl =>
      intro hm
      rw [treatL, weighL_cons, weighL_cons, ih a (hm a List.mem_cons_self),
        ihl _ _ fun n hn => hm n (List.mem_cons_of_mem _ hn)]
  have hks : weighL w (if hidesCode k then ks else treatL J (wh.enter k)
      (fun i => kidTargets ts (role J r k as ks) k as i) (fun i => kidRole (role J r k as ks) k as ks.length i) ks) =
      weighL w ks := by
    split
    · rfl
    · exact hl _ _ _ ks fun _ h => h
  revert hks
  generalize (if hidesCode k then ks else treatL J (wh.enter k)
      (fun i => kidTargets ts (role J r k as ks) k as i)
      (fun i => kidRole (role J r k as ks) k as ks.length i) ks) = ks'
  intro hks
  unfold assemble
  dsimp only
  rw [weigh_mk, ← hks]
  have ha : ∀ as', w (k, as') = w (k, as) := fun as' => h.attrs _ _ _
  split
  · split <;> simp [h.wrapHead, h.attrs _ _ as]
  · split <;> simp [h.wrapHead, h.attrs _ _ as]
  · split
    · split
      · rw [h.tryMatch, h.other _ _ (by simp)]; simp
      · simp [h.attrs _ _ as]
    · simp [h.attrs _ _ as]
  · split
    · rename_i p t e
      split
      · rw [ctor, h.construct, h.other _ as (by simp), hks]; simp
      · rw [weigh_mk, hks, h.attrs _ _ as]
    · rw [weigh_mk, hks, h.attrs _ _ as]
  · rw [weigh_mk, h.attrs _ _ as]
    congr 1
    split
    · exact h.wrapLast _ _
    · rfl
  · rw [weigh_mk, h.attrs _ _ as]
    congr 1
    split
    · exact h.wrapAll _ _
    · rfl
  · rw [weigh_mk, h.attrs _ _ as]
    congr 1
    split
    · exact h.wrapAll _ _
    · rfl
  · rw [weigh_mk, h.attrs _ _ as]

theorem Items.blur (h : Items w) (en : Ident) : ∀ n : Node, weigh w (blur en n) = weigh w n := by
  refine Node.ind (P := fun n => weigh w (Spec.blur en n) = weigh w n) ?_
  intro k as ks ih
  have hl : ∀ l : List Node, (∀ n ∈ l, n ∈ ks) → weighL w (blurL en l) = weighL w l := by
    intro l
    induction l with
    | nil => intro _; rfl
    | cons a l ihl =>
      intro hm
      rw [blurL, weighL_cons, weighL_cons, ih a (hm a List.mem_cons_self),
        ihl fun n hn => hm n (List.mem_cons_of_mem _ hn)]
  rw [Spec.blur, weigh_mk, weigh_mk, hl ks fun _ h => h]
  congr 1
  unfold blurK
  split
  · split
    · rw [h.other _ _ (by simp), h.other _ _ (by simp)]
    · rfl
  · rfl

theorem Items.alike (h : Items w) {en : Ident} {a b : Node} (ha : Alike en a b) : weigh w a = weigh w b := by
  rw [← h.blur en a, ← h.blur en b, ha]

theorem Items.treatL (h : Items w) {J : Job} {wh : Where} : ∀ {l : List Node} {tss : Nat → List Target}
    {rs : Nat → Role}, weighL w (treatL J wh tss rs l) = weighL w l
  | [], _, _ => rfl
  | a :: l, _, _ => by rw [Spec.treatL, weighL_cons, weighL_cons, h.treat, Items.treatL h]

theorem Items.treatExpr (h : Items w) (en : Ident) (m : String) (semi : Bool) (e : Node) :
    weigh w (treatExpr en m semi e) = weigh w e := by
  unfold Spec.treatExpr
  split
  · simp [h.treat]
  · exact h.treat _ _ _ _

theorem Items.treatInput (h : Items w) (en : Ident) (m : String) (n : Node) :
    weigh w (treatInput en m n) = weigh w n := by
  unfold Spec.treatInput
  split
  · simp [h.treatExpr]
  · simp [h.treatExpr]
  · simp [treatBody, h.treatL]
  · exact h.treatExpr _ _ _ _

theorem Items.retype (h : Items w) (b : Bool) (traits : List Path) (n : Node) :
    weigh w (retype b traits n) = weigh w n := by
  unfold Spec.retype
  split
  · split
    · simp [h.other (.sLocal _) _ (by simp)]
    · rfl
  · rfl

theorem Items.placeEnum (h : Items w) (g n : Node) : weigh w (placeEnum g n) = weigh w g + weigh w n := by
  have hb : ∀ e, weigh w (inBlock g e) = weigh w g + weigh w e := by
    intro e
    simp [inBlock, h.other]
  unfold Spec.placeEnum
  split
  · simp [hb]; omega
  · simp [hb]; omega
  · simp; omega
  · exact hb _

end

/-- No constructor is used twice. -/
theorem uses_out {env : Env} {traits : List Path} {en : Ident} {m : String} {n out : Node}
    (h : Accepted env traits en m n out) (hs : Simple en m n) (x : Ident) : uses en x out ≤ 1 := by
  obtain ⟨n', h1, -, ho⟩ := h.treated hs
  obtain ⟨fuel, g, toks, marker, input, _, _, _, h4, h5⟩ := h.run
  have hb := C01_balance env fuel g toks input n out
    (by rcases h4 with ⟨h, _⟩ | ⟨h, _⟩ <;> simp [h]) h5 en x
  have h0 : uses en x n = 0 := by
    have hle : ∀ ls : List Label, (ls.map (isUse en x)).sum ≤ (ls.map (isCtor en)).sum := by
      intro ls
      induction ls with
      | nil => simp
      | cons a ls ih =>
        have : isUse en x a ≤ isCtor en a := by
          unfold isUse
          split
          · split
            · rename_i hp
              subst hp
              simp [isCtor, variantPath]
            · omega
          · omega
        simp only [List.map_cons, List.sum_cons]
        omega
    have := hle (labels n)
    have hf := hs.fresh
    simp only [ctors, weigh] at hf
    simp only [uses, weigh]
    omega
  have hi := items_isDecl en x
  have h6 : decls en x out = (variantNames (ctors en (treatInput en m n))).count x + decls en x n := by
    rw [ho]
    simp only [decls]
    rw [hi.placeEnum, hi.alike h1, hi.retype, hi.treatInput]
    simp [enumDecl, isDecl, Function.comp_def]
  have h7 : (variantNames (ctors en (treatInput en m n))).count x ≤ 1 :=
    List.nodup_iff_count.mp (nodup_variants (ctors en (treatInput en m n))) x
  omega

/-- `d` is `b` with the declaration of an item in front. -/
inductive DeclaredIn (it : ItemK) (b : Node) : Node → Prop
  | same : DeclaredIn it b b
  | block : DeclaredIn it b (inBlock (.mk (.sItem it) [] []) b)
  | body {ss : List Node} : ss ≠ [] → b = .mk (.eBlock none) [] ss →
      DeclaredIn it b (.mk (.eBlock none) [] (.mk (.sItem it) [] [] :: ss))

theorem DeclaredIn.expr {en : Ident} {m : String} {e e' : Node} {it : ItemK}
    (ha : Alike en e' (treatExpr en m false e)) :
    ∃ b', Alike en b' (treat (jobOfExpr en m e) {} [] (jobOfExpr en m e).start (bodyOf e)) ∧
      DeclaredIn it b' (bodyIn e (inBlock (.mk (.sItem it) [] []) e')) := by
  by_cases hcl : ∃ i as b, e = .mk (.eClosure i) as [b]
  · obtain ⟨i, as, b, rfl⟩ := hcl
    simp only [treatExpr] at ha
    obtain ⟨ks, rfl, h1⟩ := Alike.rigid ha (by simp)
    obtain ⟨b', l, rfl, h2, h3⟩ := alikeL_inv h1
    cases alikeL_nil h3
    exact ⟨b', h2, .same⟩
  · have h1 : bodyOf e = e := by
      unfold bodyOf
      split
      · exact absurd ⟨_, _, _, rfl⟩ hcl
      · rfl
    have h2 : jobOfExpr en m e = exprJob en m false := by
      unfold jobOfExpr
      split
      · exact absurd ⟨_, _, _, rfl⟩ hcl
      · rfl
    have h3 : treatExpr en m false e = treat (exprJob en m false) {} [] (exprJob en m false).start e := by
      unfold treatExpr
      split
      · exact absurd ⟨_, _, _, rfl⟩ hcl
      · rfl
    unfold bodyIn
    split
    · exact absurd ⟨_, _, _, rfl⟩ hcl
    · rw [h1]
      rw [h3, ← h2] at ha
      exact ⟨e', ha, .block⟩

theorem treatBody_start {J : Job} (ss : List Node) :
    .mk (.eBlock none) [] (treatBody J ss) = treat J {} [] J.start (.mk (.eBlock none) [] ss) := by
  cases hb : J.branches with
  | true =>
    rw [show J.start = .result by simp [Job.start, hb]]
    exact treatBody_block hb ss
  | false =>
    have hst : strip [] = [] := rfl
    have hr : role J J.start (.eBlock none) [] ss = .plain := by unfold role; rw [if_pos hb]
    rw [treat.eq_def]
    dsimp only
    rw [hr]
    unfold assemble treatBody
    dsimp only
    rw [if_pos (show carries (.eBlock none) = true from rfl), hst, if_neg (by simp), if_neg (by simp [hidesCode])]
    congr 1
    congr 1
    funext i
    simp [bodyRole, Job.start, hb, kidRole]

/-- The counterpart of the code in which wrapping starts: the wrapped code with the enum declared in front. -/
theorem counterpart_started {env : Env} {traits : List Path} {en : Ident} {m : String} {n out : Node}
    (h : Accepted env traits en m n out) (hs : Simple en m n)
    (hb : (jobOf en m n).branches = true ∨ (jobOf en m n).tries = true) :
    ∃ it b', Alike en b' (treat (jobOf en m n) {} [] (jobOf en m n).start (startOf n)) ∧
      DeclaredIn it b' (counterpart n out) := by
  obtain ⟨n', h1, -, ho⟩ := h.treated hs
  have hord := hs.ordinary
  clear hs h
  subst ho
  unfold ordinary at hord
  unfold enumDecl at *
  generalize ItemK.genEnum en (variantNames (ctors en (treatInput en m n)))
    ((variantNames (ctors en (treatInput en m n))).map fun v => (v, v))
    (traits ++ inferredFor env.typeAnalysis traits n) = it
  refine ⟨it, ?_⟩
  split at hord
  · rename_i semi as e
    cases semi with
    | true => rcases hb with h | h <;> cases h
    | false =>
      simp only [treatInput, retype] at h1
      obtain ⟨ks, rfl, h2⟩ := Alike.rigid h1 (by simp)
      obtain ⟨e', l, rfl, h3, h4⟩ := alikeL_inv h2
      cases alikeL_nil h4
      exact DeclaredIn.expr (e := e) (e' := e') h3
  · rename_i p as e els
    have : ∃ p', retype env.typeAnalysis traits (treatInput en m (.mk (.sLocal p) as (e :: els))) =
        .mk (.sLocal p') as (treatExpr en m false e :: els) := by
      simp only [treatInput]
      unfold retype
      split
      · rename_i heq
        cases heq
        split <;> exact ⟨_, rfl⟩
      · exact ⟨_, rfl⟩
    obtain ⟨p', hp'⟩ := this
    rw [hp'] at h1
    obtain ⟨ks, rfl, h2⟩ := Alike.rigid h1 (by simp)
    obtain ⟨e', l, rfl, h3, h4⟩ := alikeL_inv h2
    exact DeclaredIn.expr (e := e) (e' := e') h3
  · rename_i name ret as asb ss
    simp only [treatInput, retype] at h1
    obtain ⟨ks, rfl, h2⟩ := Alike.rigid h1 (by simp)
    obtain ⟨b', l, rfl, h3, h4⟩ := alikeL_inv h2
    cases alikeL_nil h4
    obtain ⟨ss', rfl, h5⟩ := Alike.rigid h3 (by simp)
    refine ⟨.mk (.eBlock none) [] ss', ?_, .body ?_ rfl⟩
    · simp only [jobOf, startOf, bodyOf, targetOf] at *
      rw [← treatBody_start]
      exact .node _ _ h5
    · intro h0
      subst h0
      have hl := h5.length
      unfold treatBody at hl
      rw [treatL_length] at hl
      simp only [Bool.and_eq_true] at hord
      cases ss with
      | nil => simp [ordinaryBody] at hord
      | cons => cases hl
  · rename_i h2 h3 h4
    simp only [Bool.and_eq_true] at hord
    have hte := targetOf_expr hord.1
    have hti : treatInput en m n = treatExpr en m false n := by
      unfold treatInput
      split
      · exact absurd rfl (h2 _ _ _)
      · exact absurd rfl (h3 _ _ _ _)
      · exact absurd rfl (h4 _ _ _ _ _)
      · rfl
    have hj : jobOf en m n = jobOfExpr en m n := by
      obtain ⟨k, as, ks⟩ := n
      cases k <;> first | rfl | cases hord.1
    have hx := isExprNode_treatExpr (en := en) (m := m) (semi := false) hord.1
    have hrt : retype env.typeAnalysis traits (treatInput en m n) = treatExpr en m false n := by
      rw [hti]
      revert hx
      generalize treatExpr en m false n = t
      intro hx
      obtain ⟨k, as, ks⟩ := t
      cases k <;> first | rfl | cases hx
    rw [hrt] at h1
    have hx' : isExprNode n' = true := by rw [← isExprNode_alike h1] at hx; exact hx
    have hpl : ∀ g, placeEnum g n' = inBlock g n' := by
      intro g
      obtain ⟨k, as, ks⟩ := n'
      cases k <;> first | rfl | cases hx'
    rw [hpl]
    unfold counterpart startOf at *
    rw [hte]
    rw [hj]
    exact DeclaredIn.expr h1

theorem counterpart_treated {env : Env} {traits : List Path} {en : Ident} {m : String} {n out : Node}
    (h : Accepted env traits en m n out) (hs : Simple en m n) (hb : (jobOf en m n).branches = true) :
    ∃ it b', Alike en b' (treat (jobOf en m n) {} [] .result (startOf n)) ∧
      DeclaredIn it b' (counterpart n out) := by
  have h1 := counterpart_started h hs (.inl hb)
  rwa [show (jobOf en m n).start = .result by simp [Job.start, hb]] at h1

section

variable {T Sc : Type} {R : Rules T Sc} {G : Generated T}

open TypeRules

/-- An item declared in front changes nothing. -/
theorem stmts_item {it : ItemK} {ss : List Node} (hne : ss ≠ []) {Γ : Around T Sc} {w : Want T} :
    stmts R (typedL R G (.mk (.sItem it) [] [] :: ss)) Γ w = stmts R (typedL R G ss) Γ w := by
  cases ss with
  | nil => exact absurd rfl hne
  | cons a l =>
    simp only [typedL, stmts]
    refine propext ⟨?_, fun h => ⟨Γ.here.scope, ?_, h⟩⟩
    · rintro ⟨s, h1, h2⟩
      rw [Spec.typed, confine, if_neg (by simp [binds])] at h1
      have h3 : s = Γ.here.scope := h1.1 s rfl
      subst h3
      exact h2
    · rw [Spec.typed, confine, if_neg (by simp [binds])]
      refine ⟨fun s hs => ?_, rfl⟩
      cases hs
      rfl

theorem DeclaredIn.typed_last {it : ItemK} {b d : Node} (h : DeclaredIn it b d) {Γ : Around T Sc} {w : Want T}
    (hn : Γ.here.next = none) : Spec.typed R G d Γ w = Spec.typed R G b Γ w := by
  cases h with
  | same => rfl
  | block =>
    rw [inBlock, typed_node fun _ => hn]
    simp only [node]
    rw [stmts_item (by simp)]
    simp only [typedL, stmts]
    rw [typed_node fun _ => hn]
    rfl
  | body hne he =>
    subst he
    rw [typed_node fun _ => hn, typed_node fun _ => hn]
    exact stmts_item hne

theorem typed_confined {n : Node} {Γ : Around T Sc} {w : Want T} (hk : binds n.kind = false)
    (h : Spec.typed R G n Γ w) : Γ.leaves Γ.here.scope ∧ Spec.typed R G n Γ.inside w := by
  obtain ⟨k, as, ks⟩ := n
  simp only [Node.kind] at hk
  rw [Spec.typed] at h ⊢
  unfold confine at h ⊢
  simp only [hk, Bool.false_eq_true, if_false] at h ⊢
  exact ⟨h.1, leaves_none rfl _, h.2⟩

theorem DeclaredIn.kind {it : ItemK} {b d : Node} (h : DeclaredIn it b d) (hb : binds b.kind = false) :
    binds d.kind = false := by
  cases h with
  | same => exact hb
  | block => rfl
  | body => rfl

theorem DeclaredIn.typed {it : ItemK} {b d : Node} (h : DeclaredIn it b d) {Γ : Around T Sc} {w : Want T}
    (hb : binds b.kind = false) (ht : typed R G b Γ w) : Spec.typed R G d Γ w := by
  obtain ⟨h1, h2⟩ := typed_confined hb ht
  exact typed_outside (h.kind hb) h1 (by rw [h.typed_last rfl]; exact h2)

/-- What a result is made up of does not bind variables. -/
theorem typable_binds {J : Job} {n : Node} (hb : J.branches = true) (hc : typable J .result n = true)
    {Γ : Around T Sc} {w : Want T} (hty : typedAs true R G J.marker n Γ w) : binds n.kind = false := by
  obtain ⟨k, as, ks⟩ := n
  rw [typable] at hc
  simp only [Bool.and_eq_true, Bool.not_eq_true', Bool.or_eq_true, beq_iff_eq, bne_iff_ne] at hc
  obtain ⟨⟨⟨⟨⟨⟨hw, -⟩, hdel⟩, -⟩, -⟩, -⟩, -⟩ := hc
  simp only [role, hb, Bool.true_eq_false, if_false] at hw hdel
  show binds k = false
  split at hw
  · rename_i hd
    rw [if_pos hd] at hdel
    replace hdel := hdel.resolve_left (by simp)
    cases hnv : marked "never" as with
    | false =>
      rw [diverges.eq_def] at hd
      simp only [hnv, Bool.and_false, Bool.false_or] at hd
      split at hd <;> first | rfl | cases hd
    | true =>
      cases hbk : binds k with
      | false => rfl
      | true =>
        exfalso
        by_cases hl : ∃ p, k = .sLocal p
        · obtain ⟨p, rfl⟩ := hl
          rw [delivers.eq_def] at hdel
          simp only [nestedExpr, pledges, isExpression, callsMacro, Bool.false_and, Bool.false_or, Bool.or_false,
            Bool.and_eq_true] at hdel
          have h1 := hdel.1.1
          unfold abrupt at h1
          rw [Bool.and_eq_true] at h1
          have h2 := tame_nevers _ h1.1 (.sLocal p, as) (by rw [visible]; exact List.mem_cons_self)
          rw [hnv] at h2
          cases h2
        · have hex : isExpression k = true := by
            cases k <;> first | rfl | (cases hbk; done) | exact absurd ⟨_, rfl⟩ hl
          have hm : callsMacro J.marker k = false := by cases k <;> first | rfl | cases hbk
          have h1 : ∀ (ds : List (Judge T Sc)) Γ, ¬ (binds k = true ∧ node R G k ks ds Γ .never) := by
            rintro ds Γ ⟨hb, h⟩
            cases k <;> try (cases hb; done)
            case sLocal p => exact hl ⟨p, rfl⟩
            case eLet p =>
              obtain ⟨_, _, _, _, _, h⟩ := h
              exact h
            case eBinary op =>
              simp only [node] at h
              rw [if_pos (show (op == "&&") = true from hb)] at h
              obtain ⟨_, _, _, h⟩ := h
              exact h
          rw [typedAs_node (by rw [hm]; rfl)] at hty
          have h2 : ∀ Γ w, ¬ confine k (onNever true k as (node R G k ks
              (onNestedKids G.type k as (typedAsL true R G J.marker ks)))) Γ w := by
            intro Γ w h
            unfold confine at h
            rw [if_pos hbk] at h
            unfold onNever at h
            rw [Bool.true_and, if_pos hnv] at h
            split at h
            · cases hex
            · rw [if_pos hex] at h
              exact h1 _ _ ⟨hbk, h⟩
          unfold onNested at hty
          split at hty
          · exact h2 _ _ hty.2
          · exact h2 _ _ hty
  · cases k <;> first | rfl | cases hw

theorem treated_binds {J : Job} (hJ : J.tries = false) {n n' : Node} {w : Where} {ts : List Target} {r : Role}
    (hn : binds n.kind = false) (hc : ctors J.en n = 0) (h : Alike J.en n' (treat J w ts r n)) :
    binds n'.kind = false := by
  obtain ⟨k, as, ks⟩ := n
  simp only [ctors, weigh_mk] at hc
  cases hm : callsMacro J.marker k with
  | false => rw [kind_kept hJ hm (by omega) h]; exact hn
  | true => rcases marker_kind hm h with ⟨p, t, hk⟩ | hk <;> rw [hk] <;> rfl

theorem weigh_counterpart (w : Label → Nat) (n out : Node) (h0 : w (.eBlock none, []) = 0) :
    weigh w (counterpart n out) ≤ weigh w out := by
  have h1 : weigh w (targetOf out) ≤ weigh w out := by
    unfold targetOf
    split <;> simp [h0] <;> omega
  have h2 : weigh w (counterpart n out) ≤ weigh w (targetOf out) := by
    unfold counterpart bodyIn
    split
    · unfold closureBody
      split
      · rename_i heq
        rw [heq, weigh_mk, weighL_cons, weighL_cons, weigh_mk, weighL_cons, weigh_mk, weighL_cons]; omega
      · exact Nat.le_refl _
    · exact Nat.le_refl _
  omega

theorem weigh_start (w : Label → Nat) (n : Node) (h0 : w (.eBlock none, []) = 0) :
    weigh w (startOf n) ≤ weigh w n := by
  have h1 : weigh w (targetOf n) ≤ weigh w n := by
    unfold targetOf
    split <;> simp [h0] <;> omega
  have h2 : weigh w (startOf n) ≤ weigh w (targetOf n) := by
    unfold startOf bodyOf
    split
    · rename_i heq
      rw [heq, weigh_mk, weighL_cons]; omega
    · exact Nat.le_refl _
  omega

theorem uses_le_ctors (en x : Ident) (n : Node) : uses en x n ≤ ctors en n := by
  have hle : ∀ ls : List Label, (ls.map (isUse en x)).sum ≤ (ls.map (isCtor en)).sum := by
    intro ls
    induction ls with
    | nil => simp
    | cons a ls ih =>
      have : isUse en x a ≤ isCtor en a := by
        unfold isUse
        split
        · split
          · rename_i hp
            subst hp
            simp [isCtor, variantPath]
          · omega
        · omega
      simp only [List.map_cons, List.sum_cons]
      omega
  exact hle (labels n)

/-- The expansion has the type of the enum. -/
theorem typed_out (hR : Infers R) {env : Env} {traits : List Path} {en : Ident} {m : String} {n out : Node}
    (h : Accepted env traits en m n out) (hs : Simple en m n) (hb : (jobOf en m n).branches = true)
    (hc : typable (jobOf en m n) .result (startOf n) = true) (E : T)
    {Γ : Around T Sc} (hret : (jobOf en m n).returns = true → Γ.ret = .free)
    (hty : typedAs true R ⟨en, E, fun _ _ => False⟩ m (startOf n) Γ .free) :
    ∃ σ : Ident → T, typed R ⟨en, E, fun x t => t = σ x⟩ (counterpart n out)
      { Γ with ret := if (jobOf en m n).returns then .is E else Γ.ret } (.is E) := by
  obtain ⟨it, b', h1, h2⟩ := counterpart_treated h hs hb
  have hen := jobOf_en en m n
  have hmk := jobOf_marker en m n
  have h0 : ctors en (startOf n) = 0 := by
    have := weigh_start (isCtor en) n rfl
    have := hs.fresh
    simp only [ctors] at this ⊢
    omega
  refine typed_payload _ (fun x => ?_) _ _ ?_
  · exact Nat.le_trans (weigh_counterpart (isUse en x) n out rfl) (uses_out h hs x)
  · refine h2.typed (treated_binds (jobOf_not_tries hb) (typable_binds (R := R) (G := ⟨en, E, fun _ _ => False⟩) hb hc
      (by rw [hmk]; exact hty)) (by rw [hen]; exact h0)
      (by rw [hen]; exact h1)) ?_
    rw [typedAs_congr (P' := fun _ _ => True) _ fun x hx => by
      have := uses_le_ctors en x (startOf n)
      omega] at hty
    refine fits_result (typed_treat hR (G := ⟨en, E, fun _ _ => True⟩) (jobOf_not_tries hb) hen.symm
      (fun _ _ => trivial) _ {} [] .result b' rfl hc (by rw [hen]; exact h0)
      (by rw [hen]; exact h1)) (Γ := Γ) ⟨SameTargets.refl _ _, ?_, fun q hq => ?_, rfl, rfl⟩ (by rw [hmk]; exact hty)
    · split
      · exact ⟨by simp only [*], .inl (hret (by assumption))⟩
      · simp only [*]; exact .inr rfl
    · cases hr : (jobOf en m n).returns with
      | false => simpa [Around.answer, hr] using hq
      | true =>
        unfold Around.answer at hq ⊢
        rw [hret hr] at hq
        cases ht : Γ.tries with
        | none => rw [ht] at hq; cases hq
        | some t => rw [ht] at hq; exact hq

/-- If the expansion has the type of the enum, the original code was well typed up to the types of its branches. -/
theorem typed_source {env : Env} {traits : List Path} {en : Ident} {m : String} {n out : Node}
    (h : Accepted env traits en m n out) (hs : Simple en m n) (hb : (jobOf en m n).branches = true)
    (hc : checkable (jobOf en m n) .result (startOf n) = true)
    (hq : (jobOf en m n).returns = true → asks (startOf n) = false) (E : T) (P : Ident → T → Prop)
    {Γ : Around T Sc} (hn : Γ.here.next = none) (hret : (jobOf en m n).returns = true → Γ.ret = .free)
    (hty : typed R ⟨en, E, P⟩ (counterpart n out)
      { Γ with ret := if (jobOf en m n).returns then .is E else Γ.ret } (.is E)) :
    typedIn R ⟨en, E, fun _ _ => False⟩ m (startOf n) Γ .free := by
  obtain ⟨it, b', h1, h2⟩ := counterpart_treated h hs hb
  have hen := jobOf_en en m n
  have hmk := jobOf_marker en m n
  have h0 : ctors en (startOf n) = 0 := by
    have := weigh_start (isCtor en) n rfl
    have := hs.fresh
    simp only [ctors] at this ⊢
    omega
  unfold typedIn
  rw [typedAs_congr (P' := P) _ fun x hx => by
      have := uses_le_ctors en x (startOf n)
      omega]
  have h3 := back_treat (R := R) (G := ⟨en, E, P⟩) (tr := (jobOf en m n).returns = false) (jobOf_not_tries hb) hen.symm _ {} []
    .result b' rfl hc (by rw [hen]; exact h0) (ordinary_grammatical hs.ordinary) (fun ha => by
      cases hr : (jobOf en m n).returns
      · rfl
      · rw [hq hr] at ha; cases ha) (by rw [hen]; exact h1)
  simp only [Returns, hmk] at h3
  refine h3 { Γ with ret := if (jobOf en m n).returns then .is E else Γ.ret } Γ ⟨fun l u hu => ⟨u, hu, .inl rfl, fun hh => by cases l <;> cases hh⟩, ?_, hret, ?_, rfl⟩ E
    (by rw [← h2.typed_last (Γ := { Γ with ret := if (jobOf en m n).returns then .is E else Γ.ret }) hn]; exact hty)
  · cases hr : (jobOf en m n).returns with
    | false => exact .inl rfl
    | true => exact .inr (.inr ⟨E, rfl, hret hr⟩)
  · intro hr q hq
    simpa [Around.answer, hr] using hq

end

end AutoEnums
