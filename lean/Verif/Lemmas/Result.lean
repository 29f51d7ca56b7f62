import Verif.Spec.Result
import Verif.Props.C03

/-! # Lemmas: result positions -/

namespace AutoEnums

open Spec

theorem resultOf_inBlock (g e : Node) : resultOf (inBlock g e) = resultOf e := by
  rw [inBlock, resultOf.eq_def]
  simp [lastOf]

theorem resultIn_placeEnum (en : Ident) (k : Nat) (ds : List Path) (n : Node) :
    resultIn (placeEnum (enumDecl en k ds) n) = resultIn n := by
  generalize hg : enumDecl en k ds = g
  unfold placeEnum
  split
  · simp only [resultIn, targetOf, resultOf_inBlock]
  · simp only [resultIn, targetOf, resultOf_inBlock]
  · rename_i ss
    simp only [resultIn, targetOf]
    rw [resultOf.eq_def, resultOf.eq_def]
    cases ss with
    | nil => subst hg; rfl
    | cons _ _ => simp only [lastOf]
  · rename_i h1 h2 h3
    have ht : targetOf n = n := by
      unfold targetOf
      split
      · exact absurd rfl (h1 _ _ _)
      · exact absurd rfl (h2 _ _ _ _)
      · exact absurd rfl (h3 _ _ _ _ _)
      · rfl
    have : targetOf (inBlock g n) = inBlock g n := rfl
    have h2 : resultIn (inBlock g n) = enterClosure (resultOf n) := by
      rw [← resultOf_inBlock g n]
      rfl
    rw [h2]
    obtain ⟨k, as, ks⟩ := n
    cases k <;> simp only [resultIn, ht]
    rw [resultOf.eq_def]
    rfl

theorem blurK_ePath (en : Ident) (q : Bool) (p : Path) :
    ∃ p', blurK en (.ePath q p) = .ePath q p' := by
  unfold blurK
  split
  · rename_i h
    cases h
    split
    · exact ⟨_, rfl⟩
    · exact ⟨_, rfl⟩
  · exact ⟨_, rfl⟩

theorem lastOf_blur {en : Ident} {ks : List Node}
    (ih : ∀ m, sizeOf m < sizeOf ks → resultOf (blur en m) = blur en (resultOf m)) :
    lastOf (blurL en ks) = blur en (lastOf ks) := by
  induction ks with
  | nil => rfl
  | cons n ns ihl =>
    cases ns with
    | nil =>
      obtain ⟨k, as, ms⟩ := n
      simp only [blurL]
      cases k <;> try rfl
      case sExpr b =>
        cases b with
        | true => rfl
        | false =>
          match ms with
          | [] => rfl
          | [e] => simp only [blur, blurL, blurK, lastOf]; exact ih e (by simp; omega)
          | _ :: _ :: _ => rfl
      case ePath q p =>
        obtain ⟨p', hp⟩ := blurK_ePath en q p
        simp only [blur, hp]
        rfl
    | cons n' ns =>
      simp only [blurL, lastOf] at ihl ⊢
      exact ihl fun m hm => ih m (by simp at hm ⊢; omega)

theorem resultOf_blur (en : Ident) : ∀ n, resultOf (blur en n) = blur en (resultOf n) := by
  apply Node.strongInd
  intro n ih
  obtain ⟨k, as, ks⟩ := n
  have hl := lastOf_blur (en := en) (ks := ks) fun m hm => ih m (by simp; omega)
  rw [resultOf.eq_def, resultOf.eq_def, blur]
  cases k <;> try rfl
  case eBlock l => simpa [blurK] using hl
  case eUnsafe => simpa [blurK] using hl
  case eParen =>
    match ks with
    | [] => rfl
    | [e] => simp only [blurL, blurK]; exact ih e (by simp; omega)
    | _ :: _ :: _ => rfl
  case eMethodCall m =>
    match ks with
    | [] => rfl
    | e :: es => simp only [blurL, blurK]; exact ih e (by simp; omega)
  case ePath q p =>
    obtain ⟨p', hp⟩ := blurK_ePath en q p
    rw [hp]
    dsimp only
    rw [blur, hp]

theorem targetOf_blur (en : Ident) (n : Node) : targetOf (blur en n) = blur en (targetOf n) := by
  obtain ⟨k, as, ks⟩ := n
  cases k <;> try rfl
  case sExpr b =>
    match ks with
    | [] => rfl
    | [e] => rfl
    | _ :: _ :: _ => rfl
  case sLocal b =>
    match ks with
    | [] => rfl
    | e :: _ => rfl
  case iFn b ret =>
    match ks with
    | [] => rfl
    | [.mk k as' ss] =>
      cases k <;> try rfl
      case ePath q p =>
        obtain ⟨p', hp⟩ := blurK_ePath en q p
        simp only [targetOf, blur, blurL, hp]
        simp only [blurK]
    | _ :: _ :: _ =>
      simp only [targetOf, blur, blurL, blurK]
      split <;> simp_all
  case ePath q p =>
    obtain ⟨p', hp⟩ := blurK_ePath en q p
    simp only [targetOf, blur, hp]

theorem enterClosure_blur (en : Ident) (n : Node) :
    enterClosure (blur en n) = blur en (enterClosure n) := by
  obtain ⟨k, as, ks⟩ := n
  cases k <;> try rfl
  case eClosure i =>
    match ks with
    | [] => rfl
    | [e] => exact resultOf_blur en e
    | _ :: _ :: _ => rfl
  case ePath q p =>
    obtain ⟨p', hp⟩ := blurK_ePath en q p
    simp only [enterClosure, blur, hp]

theorem resultIn_blur (en : Ident) (n : Node) : resultIn (blur en n) = blur en (resultIn n) := by
  have h : enterClosure (resultOf (targetOf (blur en n))) =
      blur en (enterClosure (resultOf (targetOf n))) := by
    rw [targetOf_blur, resultOf_blur, enterClosure_blur]
  obtain ⟨k, as, ks⟩ := n
  cases k <;> try exact h
  case iFn name ret =>
    have h : resultOf (targetOf (blur en (.mk (.iFn name ret) as ks))) =
      blur en (resultOf (targetOf (.mk (.iFn name ret) as ks))) := by
      rw [targetOf_blur, resultOf_blur]
    simpa only [resultIn, blur, blurK] using h
  case ePath q p =>
    obtain ⟨p', hp⟩ := blurK_ePath en q p
    simp only [resultIn, blur, hp] at h ⊢
    exact h

theorem resultIn_alike {en : Ident} {a b : Node} (h : Alike en a b) :
    Alike en (resultIn a) (resultIn b) := by
  unfold Alike at *
  rw [← resultIn_blur, ← resultIn_blur, h]

theorem resultIn_retype (b : Bool) (traits : List Path) (n : Node)
    (h : ∀ p as, n ≠ .mk (.sLocal p) as []) : resultIn (retype b traits n) = resultIn n := by
  unfold retype
  split
  · split
    · rename_i ks _
      cases ks with
      | nil => exact absurd rfl (h _ _)
      | cons _ _ => rfl
    · rfl
  · rfl

theorem role_result {J : Job} {k : Kind} {as : List Attr} {ks : List Node}
    (hb : J.branches = true) (hd : diverges J.marker (.mk k as ks) = false) :
    role J .result k as ks = .result := by
  unfold role
  simp [hb, hd]

theorem treatL_last (J : Job) (w : Where) (ts : Nat → List Target) (rs : Nat → Role)
    (ks : List Node) (n : Node) : treatL J w ts rs (ks ++ [n]) =
      treatL J w ts rs ks ++ [treat J w (ts ks.length) (rs ks.length) n] := by
  induction ks generalizing ts rs with
  | nil => rfl
  | cons m ms ih =>
    simp only [List.cons_append, treatL, ih, List.length_cons]

theorem treatL_length (J : Job) (w : Where) (ts : Nat → List Target) (rs : Nat → Role)
    (ks : List Node) : (treatL J w ts rs ks).length = ks.length := by
  induction ks generalizing ts rs with
  | nil => rfl
  | cons m ms ih => simp only [treatL, List.length_cons, ih]

theorem lastOf_append (ks : List Node) (n : Node) : lastOf (ks ++ [n]) = lastOf [n] := by
  induction ks with
  | nil => rfl
  | cons m ms ih =>
    cases ms with
    | nil => simp only [List.cons_append, List.nil_append, lastOf]
    | cons m' ms => simpa only [List.cons_append, lastOf] using ih

theorem divergesLast_append (m : String) (ks : List Node) (n : Node) :
    divergesLast m (ks ++ [n]) = divergesLast m [n] := by
  induction ks with
  | nil => rfl
  | cons m' ms ih =>
    cases ms with
    | nil => simp only [List.cons_append, List.nil_append, divergesLast]
    | cons m' ms => simpa only [List.cons_append, divergesLast] using ih


theorem treat_tail {J : Job} (w : Where) (ts : List Target) (as : List Attr) (e : Node)
    (hb : J.branches = true) : treat J w ts .result (.mk (.sExpr false) as [e]) =
      .mk (.sExpr false) as [treat J w ts .result e] := by
  have hd : diverges J.marker (.mk (.sExpr false) as [e]) = false := by
    rw [diverges.eq_def]
    simp [Kind.hasAttrs]
  rw [treat.eq_def]
  simp only [role_result hb hd, treatL, assemble, hidesCode, kidRole, kidTargets, through,
    isExpression, carries, Where.enter]
  simp only [Bool.false_eq_true, if_false, Bool.false_and, if_true]

/-- None of the targets is a loop whose `break`s are wrapped. -/
def noneOurs (ts : List Target) : Prop := ∀ t ∈ ts, t.ours = false

theorem noneOurs.through {ts : List Target} (h : noneOurs ts) (k : Kind) (as : List Attr) :
    noneOurs (through ts k as) := by
  unfold Spec.through
  split
  · intro t ht
    simp only [List.mem_map] at ht
    obtain ⟨_, _, rfl⟩ := ht
    rfl
  · exact h

theorem noneOurs.cons {ts : List Target} (h : noneOurs ts) {t : Target} (ht : t.ours = false) :
    noneOurs (t :: ts) := by
  intro u hu
  rcases List.mem_cons.mp hu with rfl | hu
  · exact ht
  · exact h u hu

/-- Only a loop in result position brings a target whose `break`s are wrapped. -/
theorem noneOurs.kid {ts : List Target} (h : noneOurs ts) {r : Role} {k : Kind} {as : List Attr}
    {i : Nat} (hk : (∃ l, k = .eLoop l) → r ≠ .result) : noneOurs (kidTargets ts r k as i) := by
  have ht := h.through k as
  unfold kidTargets
  split
  · intro t ht; cases ht
  · intro t ht; cases ht
  · exact ht.cons (by simpa using hk ⟨_, rfl⟩)
  · exact ht.cons rfl
  · split
    · exact ht
    · exact ht.cons rfl
  · exact ht.cons rfl
  · exact ht

theorem lastOf_treatL {J : Job} {w : Where} {ts : Nat → List Target} {rs : Nat → Role}
    {ks : List Node} (hr : rs (ks.length - 1) = .result) (hb : J.branches = true)
    (hd : divergesLast J.marker ks = false) (hx : isBranching (lastOf ks).kind = true)
    {P : List Target → Prop} (hts : ∀ i, P (ts i))
    (ih : ∀ m, sizeOf m < sizeOf ks → ∀ ts, P ts → diverges J.marker m = false →
      isBranching (resultOf m).kind = true → ∃ ts', P ts' ∧
      resultOf (treat J w ts .result m) = treat J w ts' .result (resultOf m)) :
    ∃ ts', P ts' ∧ lastOf (treatL J w ts rs ks) = treat J w ts' .result (lastOf ks) := by
  rcases List.eq_nil_or_concat ks with rfl | ⟨ms, n, rfl⟩
  · cases hx
  · rw [List.concat_eq_append] at *
    rw [treatL_last, lastOf_append, lastOf_append]
    rw [lastOf_append] at hx
    rw [divergesLast_append] at hd
    simp only [List.length_append, List.length_singleton, Nat.add_sub_cancel] at hr
    rw [hr]
    unfold lastOf at hx ⊢
    split at hx
    · rename_i h; cases h
    · rename_i as e h
      cases h
      simp only [divergesLast] at hd
      obtain ⟨ts', hn, h⟩ := ih e (by
        have : ∀ (l : List Node) (n : Node), sizeOf n < sizeOf (l ++ [n]) := by
          intro l n
          induction l with
          | nil => simp; omega
          | cons _ _ ih => simp at ih ⊢; omega
        have := this ms (.mk (.sExpr false) as [e])
        simp at this ⊢
        omega) (ts ms.length) (hts _) hd hx
      refine ⟨ts', hn, ?_⟩
      rw [← h, treat_tail _ _ _ _ hb]
    · cases hx
    · rename_i h; simp at h

theorem isBranching_treat {J : Job} (w : Where) (ts : List Target) (r : Role) {k : Kind}
    {as : List Attr} {ks : List Node} (hk : isBranching k = true) :
    ∃ ks', treat J w ts r (.mk k as ks) = .mk k (strip as) ks' ∧ resultOf (.mk k as ks) = .mk k as ks ∧
      ks'.length = ks.length := by
  rw [treat.eq_def, resultOf.eq_def]
  dsimp only
  cases k <;> simp only [isBranching, Bool.false_eq_true] at hk <;>
    exact ⟨_, rfl, rfl, treatL_length _ _ _ _ _⟩

/-- The treatment of the expression in result position. -/
theorem resultOf_treatP {J : Job} (hb : J.branches = true) {w : Where} {P : List Target → Prop}
    (hP : ∀ ts k as i, (∀ l, k ≠ .eLoop l) → P ts → P (kidTargets ts .result k as i)) : ∀ n ts, P ts →
    diverges J.marker n = false → isBranching (resultOf n).kind = true →
    ∃ ts', P ts' ∧ resultOf (treat J w ts .result n) = treat J w ts' .result (resultOf n) := by
  apply Node.strongInd (P := fun n => ∀ ts, P ts →
    diverges J.marker n = false → isBranching (resultOf n).kind = true → ∃ ts', P ts' ∧
      resultOf (treat J w ts .result n) = treat J w ts' .result (resultOf n))
  intro n ih ts hts hd hx
  obtain ⟨k, as, ks⟩ := n
  by_cases hk : isBranching k = true
  · obtain ⟨ks', h1, h2, _⟩ := isBranching_treat (J := J) w ts .result (as := as) (ks := ks) hk
    obtain ⟨_, _, h3, _⟩ := isBranching_treat (J := J) w ts .result (as := strip as) (ks := ks') hk
    exact ⟨ts, hts, by rw [h2, h1, h3]⟩
  · have hr := role_result (as := as) (ks := ks) hb hd
    rw [treat.eq_def]
    rw [resultOf.eq_def] at hx
    rw [diverges.eq_def] at hd
    dsimp only at hx hd ⊢
    rw [hr]
    rw [resultOf.eq_def (.mk k as ks)]
    cases k <;> try exact absurd hx hk
    case eBlock l =>
      simp only [Bool.or_eq_false_iff] at hd
      simp only [hidesCode, assemble, resultOf] at hx ⊢
      exact lastOf_treatL (by cases ks; cases hx; simp [kidRole]) hb hd.2 hx
        (fun i => hP _ _ _ _ (by simp) hts) fun m hm => ih m (by simp; omega)
    case eUnsafe =>
      simp only [Bool.or_eq_false_iff] at hd
      simp only [hidesCode, assemble, resultOf] at hx ⊢
      exact lastOf_treatL (by cases ks; cases hx; simp [kidRole]) hb hd.2 hx
        (fun i => hP _ _ _ _ (by simp) hts) fun m hm => ih m (by simp; omega)
    case eParen =>
      match ks with
      | [] => exact absurd hx hk
      | [e] =>
        simp only [Bool.or_eq_false_iff] at hd
        simp only [hidesCode, assemble, treatL] at hx ⊢
        exact ih e (by simp; omega) _ (hP _ _ _ _ (by simp) hts) hd.2 hx
      | _ :: _ :: _ => exact absurd hx hk
    case eMethodCall m =>
      match ks with
      | [] => exact absurd hx hk
      | e :: _ =>
        simp only [Bool.or_eq_false_iff] at hd
        simp only [hidesCode, assemble, treatL] at hx ⊢
        exact ih e (by simp; omega) _ (hP _ _ _ _ (by simp) hts) hd.2 hx

theorem resultOf_treat {J : Job} (hb : J.branches = true) {w : Where} : ∀ n ts, noneOurs ts →
    diverges J.marker n = false → isBranching (resultOf n).kind = true →
    ∃ ts', noneOurs ts' ∧ resultOf (treat J w ts .result n) = treat J w ts' .result (resultOf n) :=
  resultOf_treatP hb fun _ _ _ _ hk h => h.kid fun ⟨l, hl⟩ => absurd hl (hk l)

theorem jobOf_marker (en : Ident) (m : String) (n : Node) : (jobOf en m n).marker = m := by
  unfold jobOf
  split
  · unfold fnJob
    split <;> try rfl
    split <;> rfl
  · rfl
  · unfold jobOfExpr
    split
    · unfold closureJob; split <;> rfl
    · rfl

theorem enterClosure_branching {n : Node} (h : isBranching n.kind = true) : enterClosure n = n := by
  obtain ⟨k, as, ks⟩ := n
  cases k <;> first | rfl | cases h

theorem treat_branching {J : Job} (w : Where) (ts : List Target) (r : Role) {n : Node}
    (h : isBranching n.kind = true) : isBranching (treat J w ts r n).kind = true := by
  obtain ⟨k, as, ks⟩ := n
  obtain ⟨_, h1, _⟩ := isBranching_treat (J := J) w ts r (k := k) (as := as) (ks := ks) h
  rw [h1]
  exact h

theorem result_treatExpr {en : Ident} {m : String} {e : Node}
    (hb : (jobOfExpr en m e).branches = true) (hm : (jobOfExpr en m e).marker = m)
    (hd : diverges m (bodyOf e) = false) (hx : isBranching (resultOf (bodyOf e)).kind = true) :
    ∃ ts, noneOurs ts ∧ enterClosure (resultOf (treatExpr en m false e)) =
      treat (jobOfExpr en m e) {} ts .result (resultOf (bodyOf e)) := by
  rcases Classical.em (∃ i as b, e = .mk (.eClosure i) as [b]) with ⟨i, as, b, rfl⟩ | hn
  · simp only [jobOfExpr, bodyOf, treatExpr, Job.start] at hb hm hd hx ⊢
    rw [hb, resultOf.eq_def]
    exact resultOf_treat hb _ _ (fun t h => by cases h) (by rw [hm]; exact hd) hx
  · have h1 : jobOfExpr en m e = exprJob en m false := by
      unfold jobOfExpr
      split
      · exact (hn ⟨_, _, _, rfl⟩).elim
      · rfl
    have h2 : bodyOf e = e := by
      unfold bodyOf
      split
      · exact (hn ⟨_, _, _, rfl⟩).elim
      · rfl
    have h3 : treatExpr en m false e = treat (exprJob en m false) {} [] .result e := by
      unfold treatExpr
      split
      · exact (hn ⟨_, _, _, rfl⟩).elim
      · rfl
    rw [h1] at hb hm ⊢
    rw [h2] at hd hx ⊢
    obtain ⟨ts, hn, h⟩ := resultOf_treat (w := {}) hb e [] (fun t h => by cases h) (by rw [hm]; exact hd) hx
    exact ⟨ts, hn, by rw [h3, h, enterClosure_branching (treat_branching _ _ _ hx)]⟩

theorem isExprNode_assemble {J : Job} {w : Where} {ts : List Target} {r : Role} {k : Kind}
    {as : List Attr} {ks ks' : List Node} (h : isExprNode (.mk k as ks) = true) :
    isExprNode (assemble J w ts r k as ks ks') = true := by
  unfold assemble
  dsimp only
  split <;> (try split) <;> (try split) <;> first | rfl | exact h

theorem isExprNode_treatExpr {en : Ident} {m : String} {semi : Bool} {e : Node}
    (h : isExprNode e = true) : isExprNode (treatExpr en m semi e) = true := by
  unfold treatExpr
  split
  · rfl
  · obtain ⟨k, as, ks⟩ := e
    rw [treat.eq_def]
    exact isExprNode_assemble h

theorem resultIn_expr {e : Node} (h : isExprNode e = true) :
    resultIn e = enterClosure (resultOf e) := by
  obtain ⟨k, as, ks⟩ := e
  cases k <;> first | rfl | cases h

theorem resultIn_treatInput {en : Ident} {m : String} {n : Node} (ho : ordinary en m n = true)
    (hb : (jobOf en m n).branches = true) (hd : diverges m (startOf n) = false)
    (hx : isBranching (resultOf (startOf n)).kind = true) :
    ∃ ts, noneOurs ts ∧ resultIn (treatInput en m n) =
      treat (jobOf en m n) {} ts .result (resultOf (startOf n)) := by
  have hm := jobOf_marker en m n
  unfold ordinary at ho
  split at ho
  · rename_i semi as e
    cases semi with
    | true => cases hb
    | false => exact result_treatExpr hb hm hd hx
  · exact result_treatExpr hb hm hd hx
  · rename_i name ret as asb ss
    simp only [jobOf, startOf, targetOf, bodyOf, treatInput, resultIn] at hb hm hd hx ⊢
    rw [resultOf.eq_def] at hx ⊢
    rw [resultOf.eq_def]
    rw [diverges.eq_def] at hd
    simp only [Bool.or_eq_false_iff] at hd
    exact lastOf_treatL (by
      cases ss
      · cases hx
      · simp [bodyRole, Job.start, hb]) hb (by rw [hm]; exact hd.2) hx
      (fun _ t h => by cases h) fun m' hm' => resultOf_treat hb m'
  · rename_i h1 h2 h3
    simp only [Bool.and_eq_true] at ho
    have ht : targetOf n = n := by
      unfold targetOf
      split
      · exact absurd rfl (h1 _ _ _)
      · exact absurd rfl (h2 _ _ _ _)
      · exact absurd rfl (h3 _ _ _ _ _)
      · rfl
    have ht' : treatInput en m n = treatExpr en m false n := by
      unfold treatInput
      split
      · exact absurd rfl (h1 _ _ _)
      · exact absurd rfl (h2 _ _ _ _)
      · exact absurd rfl (h3 _ _ _ _ _)
      · rfl
    have hj : jobOf en m n = jobOfExpr en m n := by
      obtain ⟨k, as, ks⟩ := n
      cases k <;> try rfl
      all_goals cases ho.1
    have hr : resultIn (treatExpr en m false n) = enterClosure (resultOf (treatExpr en m false n)) :=
      resultIn_expr (isExprNode_treatExpr ho.1)
    rw [ht', hr, hj]
    unfold startOf at hd hx ⊢
    rw [ht] at hd hx ⊢
    rw [hj] at hb hm
    exact result_treatExpr hb hm hd hx

end AutoEnums
