import Verif.Lemmas.EvalMark
import Verif.Props.C01

/-! # Lemmas: evaluation of the expansion of a whole input -/

namespace AutoEnums

open Spec

section

variable {B S : Type} {M : Machine B S} {vs : List Ident}

open Eval

theorem jobOf_not_tries {en : Ident} {m : String} {n : Node} (h : (jobOf en m n).branches = true) :
    (jobOf en m n).tries = false := by
  have hc : ∀ b, (closureJob en m b).branches = true → (closureJob en m b).tries = false := by
    intro b; unfold closureJob; split <;> simp
  revert h
  unfold jobOf
  split
  · unfold fnJob
    split
    · simp
    · split <;> simp
    · simp
  · simp [exprJob]
  · unfold jobOfExpr
    split
    · exact hc _
    · simp [exprJob]

/-- A diverging expression is treated alike whether or not its value counts. -/
theorem treat_diverges {J : Job} {w : Where} {ts : List Target} {e : Node}
    (h : diverges J.marker e = true) : treat J w ts .result e = treat J w ts .plain e := by
  obtain ⟨k, as, ks⟩ := e
  have h1 : role J .result k as ks = .plain := by
    unfold role
    split
    · rfl
    · simp [h]
  have h2 : role J .plain k as ks = .plain := by
    unfold role
    split
    · rfl
    · simp [h]
  rw [treat.eq_def, treat.eq_def]
  dsimp only
  rw [h1, h2]

theorem treat_divergesLast {J : Job} {w : Where} {ts : List Target} {s : Node}
    (h : divergesLast J.marker [s] = true) : treat J w ts .result s = treat J w ts .plain s := by
  by_cases hd : diverges J.marker s = true
  · exact treat_diverges hd
  obtain ⟨k, as, ks⟩ := s
  rw [treat.eq_def, treat.eq_def]
  dsimp only
  have h2 : isExpression k = false → role J .plain k as ks = .plain := by
    intro hk
    unfold role
    split
    · rfl
    · simp [hk]
  unfold divergesLast at h
  split at h
  · cases h
  · rename_i semi as' e heq
    cases heq
    rw [h2 rfl]
    simp only [hidesCode, Bool.false_eq_true, if_false, assemble, treatL]
    congr 2
    cases semi
    · simp only [kidRole]
      split
      · simp only [kidTargets, if_neg (show ¬ (Role.plain = Role.result) by simp)]
        exact treat_diverges h
      · rfl
    · rfl
  · rename_i p as' e es heq
    cases heq
    rw [h2 rfl]
    rfl
  · rename_i heq
    cases heq
    rw [h2 rfl]
    rfl
  · rename_i heq
    cases heq
    rw [h2 rfl]
    rfl
  · cases h
  · rename_i heq; cases heq

theorem treatL_congr {J : Job} {w : Where} {ts : Nat → List Target} {rs rs' : Nat → Role} :
    ∀ {ks : List Node}, (∀ i, i < ks.length → rs i = rs' i) → treatL J w ts rs ks = treatL J w ts rs' ks := by
  intro ks
  induction ks generalizing ts rs rs' with
  | nil => intro _; rfl
  | cons n ns ih =>
    intro h
    simp only [treatL]
    rw [h 0 (by simp), ih fun i hi => h (i + 1) (by simpa using hi)]

/-- The body of a function is treated as a block whose value counts. -/
theorem treatBody_block {J : Job} (hb : J.branches = true) (ss : List Node) :
    .mk (.eBlock none) [] (treatBody J ss) = treat J {} [] .result (.mk (.eBlock none) [] ss) := by
  have hst : strip [] = [] := rfl
  have ht : through [] (.eBlock none) [] = [] := by simp [through]
  have hd : diverges J.marker (.mk (.eBlock none) [] ss) = divergesLast J.marker ss := by
    rw [diverges.eq_def]; simp [marked]
  rw [treat.eq_def]
  dsimp only
  unfold assemble
  dsimp only
  rw [if_pos (show carries (.eBlock none) = true from rfl), hst]
  congr 1
  have hnb : role J .result (.eBlock none) [] ss ≠ .branch := by
    unfold role; simp only [hb, Bool.true_eq_false, if_false]; split <;> simp
  rw [if_neg hnb, if_neg (by simp [hidesCode])]
  unfold treatBody
  by_cases hdv : divergesLast J.marker ss = true
  · have hr : role J .result (.eBlock none) [] ss = .plain := by
      unfold role; simp [hb, hd, hdv]
    rw [hr]
    rcases List.eq_nil_or_concat ss with rfl | ⟨l, a, rfl⟩
    · rfl
    · simp only [List.concat_eq_append] at hdv ⊢
      rw [divergesLast_append] at hdv
      rw [treatL_last, treatL_last]
      congr 1
      · simp only [kidTargets, ht, Where.enter]
        refine treatL_congr fun i hi => ?_
        simp only [bodyRole, kidRole, List.length_append, List.length_cons, List.length_nil]
        rw [if_neg (by omega), if_neg (by simp)]
      · simp only [kidTargets, ht, Where.enter, bodyRole, kidRole, List.length_append, List.length_cons,
          List.length_nil, Job.start, hb]
        simp only [if_true, if_neg (show ¬ (Role.plain = Role.result ∧ _) by simp)]
        rw [treat_divergesLast hdv]
  · have hr : role J .result (.eBlock none) [] ss = .result := by
      unfold role; simp [hb, hd, hdv]
    rw [hr]
    simp only [kidTargets, ht, Where.enter]
    refine treatL_congr fun i hi => ?_
    simp [bodyRole, kidRole, Job.start, hb]

theorem eval_inBlock {en : Ident} {f : Nat} {it : ItemK} {e : Node} {x : Value B} {s : S} :
    eval M en f (inBlock (.mk (.sItem it) [] []) e) x s = eval M en f e (unit M) s := by
  simp [inBlock, eval, evalL, node, stmts, labelled_none, andThen, kid]

/-- The constructors in the expansion are declared. -/
theorem ctorsIn_out {env : Env} {traits : List Path} {en : Ident} {m : String} {n out : Node}
    (h : Accepted env traits en m n out) (hf : ctors en n = 0) : ctorsIn (declared en out) en out := by
  obtain ⟨fuel, g, toks, marker, input, _, _, _, h4, h5⟩ := h.run
  intro l hl x hx
  have hb := C01_balance env fuel g toks input n out
    (by rcases h4 with ⟨h, _⟩ | ⟨h, _⟩ <;> simp [h]) h5 en x
  have h0 : uses en x n = 0 := by
    have hle : ∀ ls : List Label, (ls.map (isUse en x)).sum ≤ (ls.map (isCtor en)).sum := by
      intro ls
      induction ls with
      | nil => simp
      | cons a ls ih =>
        have : isUse en x a ≤ isCtor en a := by
          unfold isUse
          split
          · split
            · rename_i hp
              subst hp
              simp [isCtor, variantPath]
            · omega
          · omega
        simp only [List.map_cons, List.sum_cons]
        omega
    have := hle (labels n)
    simp only [ctors, weigh] at hf
    simp only [uses, weigh]
    omega
  have h1 : 0 < uses en x out := by
    have : ∀ ls : List Label, l ∈ ls → 0 < (ls.map (isUse en x)).sum := by
      intro ls
      induction ls with
      | nil => intro h; cases h
      | cons a ls ih =>
        intro h
        simp only [List.map_cons, List.sum_cons]
        rcases List.mem_cons.mp h with rfl | h
        · obtain ⟨k, as⟩ := l
          cases hx
          simp only [isUse, if_pos]
          omega
        · have := ih h
          omega
    exact this _ hl
  have h2 : 0 < decls en x out := by omega
  rw [decls_eq_enums] at h2
  unfold declared
  rw [List.mem_flatMap]
  revert h2
  induction enums out with
  | nil => intro h; simp at h
  | cons e es ih =>
    intro h
    simp only [List.map_cons, List.sum_cons] at h
    by_cases hc : 0 < (if e.name = en then (e.variants.map (·.1)).count x else 0)
    · refine ⟨e, by simp, ?_⟩
      split at hc
      · rw [if_pos (by assumption)]; exact List.count_pos_iff.mp hc
      · cases hc
    · obtain ⟨e', he', hx'⟩ := ih (by omega)
      exact ⟨e', by simp [he'], hx'⟩

theorem isExprNode_alike {en : Ident} {a b : Node} (h : Alike en a b) : isExprNode a = isExprNode b := by
  obtain ⟨k, as, ks⟩ := b
  obtain ⟨k', ks', rfl, h1, _⟩ := h.inv
  by_cases hp : ∀ p, k ≠ .ePath false p
  · rw [blurK_rigid h1 hp]; rfl
  · simp only [ne_eq, Classical.not_forall, Classical.not_not] at hp
    obtain ⟨p, rfl⟩ := hp
    obtain ⟨p', rfl, _⟩ := blurK_path h1
    rfl

theorem targetOf_expr {e : Node} (h : isExprNode e = true) : targetOf e = e := by
  obtain ⟨k, as, ks⟩ := e
  cases k <;> first | rfl | cases h

/-- Attributed expressions. -/
theorem run_expr {en : Ident} {m : String} {e e' : Node} {it : ItemK}
    (hb : (jobOfExpr en m e).branches = true) (ht : (jobOfExpr en m e).tries = false)
    (hen : (jobOfExpr en m e).en = en)
    (hmk : (jobOfExpr en m e).marker = m)
    (hs : Consistent M (jobOfExpr en m e) [] .result (bodyOf e))
    (hwr : isWrapped (jobOfExpr en m e) .result (bodyOf e) = true ∨ NeverCompletes M en (withoutMarkers m (bodyOf e)))
    (hc : ctors en e = 0)
    (ha : Alike en e' (treatExpr en m false e)) (hv : ctorsIn vs en e') (f : Nat) (s : S) :
    Agree (Wraps vs true [] (jobOfExpr en m e).returns) (run M en f (withoutMarkers m (bodyOf e)) s)
      (run M en f (bodyIn e (inBlock (.mk (.sItem it) [] []) e')) s) := by
  have key : ∀ b b', (jobOfExpr en m e).start = .result →
      Consistent M (jobOfExpr en m e) [] .result b →
      (isWrapped (jobOfExpr en m e) .result b = true ∨ NeverCompletes M en (withoutMarkers m b)) → ctors en b = 0 →
      Alike en b' (treat (jobOfExpr en m e) {} [] (jobOfExpr en m e).start b) → ctorsIn vs en b' →
      Agree (Wraps vs true [] (jobOfExpr en m e).returns) (run M en f (withoutMarkers m b) s) (run M en f b' s) := by
    intro b b' hst hs hwr hc ha hv
    rw [hst] at ha
    have := sim_never (eval_wrapped (vs := vs) (M := M) ht f b {} [] .result b' rfl hs (by rw [hen]; exact hc)
      (by rw [hen]; exact ha) (by rw [hen]; exact hv)) (b' := true)
      (by rw [hen, hmk]; exact hwr.imp id fun h => h f) (unit M) s
    rw [hen, hmk] at this
    exact this
  have hst : (jobOfExpr en m e).start = .result := by simp [Job.start, hb]
  by_cases hcl : ∃ i as b, e = .mk (.eClosure i) as [b]
  · obtain ⟨i, as, b, rfl⟩ := hcl
    simp only [treatExpr] at ha
    obtain ⟨ks, rfl, h1⟩ := Alike.rigid ha (by simp)
    obtain ⟨b', l, rfl, h2, h3⟩ := alikeL_inv h1
    cases alikeL_nil h3
    refine key b b' hst hs hwr ?_ h2 (hv.kids _ List.mem_cons_self)
    simp only [ctors, weigh_mk, weighL_cons] at hc ⊢
    omega
  · have h1 : bodyOf e = e := by
      unfold bodyOf
      split
      · exact absurd ⟨_, _, _, rfl⟩ hcl
      · rfl
    have h2 : jobOfExpr en m e = exprJob en m false := by
      unfold jobOfExpr
      split
      · exact absurd ⟨_, _, _, rfl⟩ hcl
      · rfl
    have h3 : treatExpr en m false e = treat (exprJob en m false) {} [] (exprJob en m false).start e := by
      unfold treatExpr
      split
      · exact absurd ⟨_, _, _, rfl⟩ hcl
      · rfl
    unfold bodyIn
    split
    · exact absurd ⟨_, _, _, rfl⟩ hcl
    · rw [h1] at hs hwr ⊢
      unfold run
      rw [eval_inBlock]
      rw [h3, ← h2] at ha
      exact key e e' hst hs hwr hc ha hv

/-- The expansion has the outcomes of the original code without markers. -/
theorem run_marked {env : Env} {traits : List Path} {en : Ident} {m : String} {n out : Node}
    (h : Accepted env traits en m n out) (hs : Simple en m n)
    (hb : (jobOf en m n).branches = true) (hsup : Consistent M (jobOf en m n) [] .result (startOf n))
    (hwr : isWrapped (jobOf en m n) .result (startOf n) = true ∨ NeverCompletes M en (withoutMarkers m (startOf n)))
    (f : Nat) (s : S) :
    Agree (Wraps (declared en out) true [] (jobOf en m n).returns) (run M en f (withoutMarkers m (startOf n)) s)
      (run M en f (counterpart n out) s) := by
  have hv := ctorsIn_out h hs.fresh
  obtain ⟨n', h1, -, ho⟩ := h.treated hs
  have hf := hs.fresh
  have ht := jobOf_not_tries hb
  have hen := jobOf_en en m n
  have hmk := jobOf_marker en m n
  have hord := hs.ordinary
  clear hs h
  revert hv
  generalize declared en out = vs
  intro hv
  subst ho
  unfold ordinary at hord
  unfold enumDecl at *
  split at hord
  · rename_i semi as e
    cases semi with
    | true => cases hb
    | false =>
      simp only [treatInput, retype] at h1
      obtain ⟨ks, rfl, h2⟩ := Alike.rigid h1 (by simp)
      obtain ⟨e', l, rfl, h3, h4⟩ := alikeL_inv h2
      cases alikeL_nil h4
      have hv' : ctorsIn vs en e' := (((hv.kids _ List.mem_cons_self).kids _
        (List.mem_cons_of_mem _ List.mem_cons_self)).kids _ List.mem_cons_self)
      refine run_expr (e := e) (e' := e') hb ht hen hmk hsup hwr ?_ h3 hv' f s
      simp only [ctors, weigh_mk, weighL_cons] at hf ⊢
      omega
  · rename_i p as e els
    have : ∃ p', retype env.typeAnalysis traits (treatInput en m (.mk (.sLocal p) as (e :: els))) =
        .mk (.sLocal p') as (treatExpr en m false e :: els) := by
      simp only [treatInput]
      unfold retype
      split
      · rename_i heq
        cases heq
        split <;> exact ⟨_, rfl⟩
      · exact ⟨_, rfl⟩
    obtain ⟨p', hp'⟩ := this
    rw [hp'] at h1
    obtain ⟨ks, rfl, h2⟩ := Alike.rigid h1 (by simp)
    obtain ⟨e', l, rfl, h3, h4⟩ := alikeL_inv h2
    have hv' : ctorsIn vs en e' := (((hv.kids _ List.mem_cons_self).kids _
      (List.mem_cons_of_mem _ List.mem_cons_self)).kids _ List.mem_cons_self)
    refine run_expr (e := e) (e' := e') hb ht hen hmk hsup hwr ?_ h3 hv' f s
    simp only [ctors, weigh_mk, weighL_cons] at hf ⊢
    omega
  · rename_i name ret as asb ss
    simp only [treatInput, retype] at h1
    obtain ⟨ks, rfl, h2⟩ := Alike.rigid h1 (by simp)
    obtain ⟨b', l, rfl, h3, h4⟩ := alikeL_inv h2
    cases alikeL_nil h4
    obtain ⟨ss', rfl, h5⟩ := Alike.rigid h3 (by simp)
    simp only [jobOf, startOf, bodyOf, targetOf, counterpart, placeEnum] at *
    revert hb ht hen hmk hsup hwr h5
    generalize fnJob en m ret (.mk .block asb ss) = J
    intro hb hsup hwr ht hen hmk h5
    subst hen
    subst hmk
    have h6 : Alike J.en (.mk (.eBlock none) [] ss') (treat J {} [] .result (.mk (.eBlock none) [] ss)) := by
      rw [← treatBody_block hb]
      exact .node _ _ h5
    have hv' : ctorsIn vs J.en (.mk (.eBlock none) [] ss') := by
      intro l hl x hx
      rw [labels] at hl
      rcases List.mem_cons.mp hl with rfl | hl
      · cases hx
      · obtain ⟨a, ha, hl⟩ := mem_labelsL.mp hl
        exact (hv.kids _ List.mem_cons_self).kids a (List.mem_cons_of_mem _ ha) l hl x hx
    have := sim_never (eval_wrapped (vs := vs) (M := M) ht f _ {} [] .result _ rfl hsup ?_ h6 hv') (b' := true)
      (hwr.imp id fun h => h f) (unit M) s
    · unfold run
      have hne : ss' ≠ [] := by
        intro h0
        subst h0
        have hl := h5.length
        unfold treatBody at hl
        rw [treatL_length] at hl
        simp only [Bool.and_eq_true] at hord
        cases ss with
        | nil => simp [ordinaryBody] at hord
        | cons => cases hl
      simp only [bodyIn]
      have h7 : ∀ it, eval M J.en f (.mk (.eBlock none) [] (.mk (.sItem it) [] [] :: ss')) (unit M) s =
          eval M J.en f (.mk (.eBlock none) [] ss') (unit M) s := by
        intro it
        cases ss' with
        | nil => exact absurd rfl hne
        | cons a l => simp only [eval, evalL, node, labelled_none, stmts, andThen]
      rw [h7]
      exact this
    · simp only [ctors, weigh_mk, weighL_cons, weighL_nil] at hf ⊢
      have : isCtor J.en (.eBlock none, []) = 0 := rfl
      omega
  · rename_i h2 h3 h4
    simp only [Bool.and_eq_true] at hord
    have hte := targetOf_expr hord.1
    have hti : treatInput en m n = treatExpr en m false n := by
      unfold treatInput
      split
      · exact absurd rfl (h2 _ _ _)
      · exact absurd rfl (h3 _ _ _ _)
      · exact absurd rfl (h4 _ _ _ _ _)
      · rfl
    have hj : jobOf en m n = jobOfExpr en m n := by
      obtain ⟨k, as, ks⟩ := n
      cases k <;> first | rfl | cases hord.1
    have hx := isExprNode_treatExpr (en := en) (m := m) (semi := false) hord.1
    have hrt : retype env.typeAnalysis traits (treatInput en m n) = treatExpr en m false n := by
      rw [hti]
      revert hx
      generalize treatExpr en m false n = t
      intro hx
      obtain ⟨k, as, ks⟩ := t
      cases k <;> first | rfl | cases hx
    rw [hrt] at h1
    have hx' : isExprNode n' = true := by rw [← isExprNode_alike h1] at hx; exact hx
    have hpl : ∀ g, placeEnum g n' = inBlock g n' := by
      intro g
      obtain ⟨k, as, ks⟩ := n'
      cases k <;> first | rfl | cases hx'
    rw [hpl] at hv ⊢
    unfold counterpart startOf at *
    rw [hte] at hsup hwr ⊢
    rw [hj] at hb ht hen hmk hsup hwr ⊢
    have hv' : ctorsIn vs en n' :=
      (hv.kids _ (List.mem_cons_of_mem _ List.mem_cons_self)).kids _ List.mem_cons_self
    exact run_expr hb ht hen hmk hsup hwr hf h1 hv' f s

theorem covered_result {en : Ident} {m : String} {n : Node}
    (hsup : Covered M (jobOf en m n) [] .result (startOf n)) :
    isWrapped (jobOf en m n) .result (startOf n) = true ∨ NeverCompletes M en (withoutMarkers m (startOf n)) := by
  have hu := covered_unmarked _ _ _ hsup
  rw [jobOf_marker] at hu
  rw [hu]
  revert hsup
  generalize startOf n = b
  intro hsup
  obtain ⟨k, as, ks⟩ := b
  rw [covered_wrapped _ _ _ hsup _ _ _ rfl]
  rw [Covered] at hsup
  by_cases hr : role (jobOf en m n) .result k as ks = .plain
  · right
    have := hsup.2.1 (by simp) hr
    rw [jobOf_en] at this
    exact this
  · left; simpa using hr

/-- The expansion has the outcomes of the original code. -/
theorem run_accepted {env : Env} {traits : List Path} {en : Ident} {m : String} {n out : Node}
    (h : Accepted env traits en m n out) (hs : Simple en m n)
    (hb : (jobOf en m n).branches = true) (hsup : Covered M (jobOf en m n) [] .result (startOf n))
    (f : Nat) (s : S) :
    Agree (Wraps (declared en out) true [] (jobOf en m n).returns) (run M en f (startOf n) s)
      (run M en f (counterpart n out) s) := by
  have hu := covered_unmarked _ _ _ hsup
  rw [jobOf_marker] at hu
  have := run_marked h hs hb (Covered.consistent _ _ _ hsup) (covered_result hsup) f s
  rw [hu] at this
  exact this

end

end AutoEnums
