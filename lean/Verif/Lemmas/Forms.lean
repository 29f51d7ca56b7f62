import Verif.Spec.Quiet
import Verif.Lemmas.Accepted

/-! # Lemmas: what the treatment of branching expressions looks like -/

namespace AutoEnums

open Spec

theorem dropFirst_none {p : Attr → Bool} {as : List Attr} (h : ∀ a ∈ as, p a = false) :
    dropFirst p as = as := by
  induction as with
  | nil => rfl
  | cons a as ih =>
    simp only [dropFirst, h a (by simp), Bool.false_eq_true, if_false]
    rw [ih fun b hb => h b (by simp [hb])]

theorem strip_quiet {as : List Attr}
    (h : (as.all fun a => !named "never" a && !named "nested" a) = true) : strip as = as := by
  simp only [List.all_eq_true, Bool.and_eq_true, Bool.not_eq_true'] at h
  unfold strip
  rw [dropFirst_none (p := named "nested") fun a ha => (h a ha).2,
    dropFirst_none fun a ha => (h a ha).1]

theorem marked_quiet {s : String} {as : List Attr} (h : ∀ a ∈ as, named s a = false) :
    marked s as = false := by
  unfold marked
  rw [List.any_eq_false]
  intro a ha
  simp [h a ha]

theorem quiet_mk (m : String) (k : Kind) (as : List Attr) (ks : List Node) :
    quiet m (.mk k as ks) = (quietHere m (k, as) && (hidesCode k || quietL m ks)) := by
  simp only [quiet, visible, quietL, List.all_cons]
  cases hidesCode k <;> simp

theorem quietL_cons (m : String) (n : Node) (ns : List Node) :
    quietL m (n :: ns) = (quiet m n && quietL m ns) := by
  simp [quietL, quiet, visibleL]

theorem hits_noneOurs {ts : List Target} (h : noneOurs ts) (l : Option String) : hits ts l = false := by
  induction ts with
  | nil => cases l <;> rfl
  | cons t ts ih =>
    have h1 := h t (by simp)
    have h2 := ih fun u hu => h u (by simp [hu])
    cases l <;> simp only [hits] <;> split <;> assumption

/-- Quiet code is left as it is. -/
theorem treat_quiet {J : Job} : ∀ (n : Node) (w : Where) (ts : List Target), noneOurs ts →
    quiet J.marker n = true → treat J w ts .plain n = n := by
  refine Node.ind (P := fun n => ∀ (w : Where) (ts : List Target), noneOurs ts →
    quiet J.marker n = true → treat J w ts .plain n = n) ?_
  intro k as ks ih w ts hts hq
  rw [quiet_mk, Bool.and_eq_true] at hq
  obtain ⟨hh, hk⟩ := hq
  unfold quietHere at hh
  rw [Bool.and_eq_true] at hh
  obtain ⟨hh, hat⟩ := hh
  have hst := strip_quiet hat
  have hne : marked "nested" as = false := marked_quiet fun a ha => by
    have := List.all_eq_true.mp hat a ha
    simp only [Bool.and_eq_true, Bool.not_eq_true'] at this
    exact this.2
  have hro : role J .plain k as ks = .plain := by
    unfold role
    split
    · rfl
    · simp [hne]
  rw [treat.eq_def]
  dsimp only
  rw [hro]
  have hkr : ∀ i, kidRole .plain k as ks.length i = .plain := by
    intro i
    unfold kidRole
    split <;> simp [hne]
  have hkids : hidesCode k = false → treatL J (w.enter k) (fun i => kidTargets ts .plain k as i)
      (fun i => kidRole .plain k as ks.length i) ks = ks := by
    intro hc
    rw [hc, Bool.false_or] at hk
    have : ∀ (l : List Node) (ts : Nat → List Target) (rs : Nat → Role), (∀ n ∈ l, n ∈ ks) →
        quietL J.marker l = true → (∀ i, noneOurs (ts i)) → (∀ i, rs i = .plain) →
        treatL J (w.enter k) ts rs l = l := by
      intro l
      induction l with
      | nil => intros; rfl
      | cons n ns ih2 =>
        intro ts rs hmem hq hts hrs
        rw [quietL_cons, Bool.and_eq_true] at hq
        simp only [treatL]
        rw [hrs 0, ih n (hmem n (by simp)) _ _ (hts 0) hq.1,
          ih2 _ _ (fun n h => hmem n (by simp [h])) hq.2 (fun i => hts _) fun i => hrs _]
    exact this ks _ _ (fun _ h => h) hk (fun i => hts.kid (by simp)) hkr
  have hks : (if hidesCode k then ks
       else treatL J (w.enter k) (fun i => kidTargets ts .plain k as i)
        (fun i => kidRole .plain k as ks.length i) ks) = ks := by
    split
    · rfl
    · exact hkids (by simp_all)
  rw [hks]
  unfold assemble
  dsimp only
  rw [hst, ite_self]
  split
  · cases hh
  · rw [hits_noneOurs (hts.through _ _)]
    rfl
  · cases hh
  · simp only [bne_iff_ne, ne_eq] at hh
    split
    · rw [if_neg hh]
    · rfl
  · rfl
  · rfl
  · rfl
  · rfl

theorem map_quiet {J : Job} {w : Where} {ts : List Target} (h : noneOurs ts) {ks : List Node}
    (hq : quietL J.marker ks = true) : ks.map (treat J w ts .plain) = ks := by
  induction ks with
  | nil => rfl
  | cons k ks ih =>
    rw [quietL_cons, Bool.and_eq_true] at hq
    rw [List.map_cons, ih hq.2, treat_quiet _ _ _ h hq.1]

theorem jobOf_en (en : Ident) (m : String) (n : Node) : (jobOf en m n).en = en := by
  unfold jobOf
  split
  · unfold fnJob
    split <;> try rfl
    split <;> rfl
  · rfl
  · unfold jobOfExpr
    split
    · unfold closureJob; split <;> rfl
    · rfl

theorem diverges_resultOf {m : String} : ∀ n, isBranching (resultOf n).kind = true →
    diverges m n = false → diverges m (resultOf n) = false := by
  apply Node.strongInd
  rintro ⟨k, as, ks⟩ ih hx hd
  have hkid : resultOf (.mk k as ks) = .mk k as ks → diverges m (resultOf (.mk k as ks)) = false := by
    intro h; rw [h]; exact hd
  have hlast : ∀ ks', sizeOf ks' < sizeOf (Node.mk k as ks) → isBranching (lastOf ks').kind = true →
      divergesLast m ks' = false → diverges m (lastOf ks') = false := by
    intro ks' hsz hx hd
    obtain ⟨ms, as, e, rfl, he⟩ := lastForm hx
    rw [he] at hx ⊢
    rw [divergesLast_append] at hd
    simp only [divergesLast] at hd
    refine ih e ?_ hx hd
    have : ∀ (l : List Node) (n : Node), sizeOf n < sizeOf (l ++ [n]) := by
      intro l n
      induction l with
      | nil => simp; omega
      | cons _ _ ih => simp at ih ⊢; omega
    have := this ms (.mk (.sExpr false) as [e])
    simp at this hsz ⊢
    omega
  rw [diverges.eq_def] at hd
  cases k <;> try (refine hkid ?_; rw [resultOf.eq_def]; done)
  case eBlock l =>
    simp only [Bool.or_eq_false_iff] at hd
    simp only [resultOf] at hx ⊢
    exact hlast _ (by simp; omega) hx hd.2
  case eUnsafe =>
    simp only [Bool.or_eq_false_iff] at hd
    simp only [resultOf] at hx ⊢
    exact hlast _ (by simp; omega) hx hd.2
  case eParen =>
    rcases ks with _ | ⟨e, _ | ⟨e2, es⟩⟩
    · exact hkid (by rw [resultOf.eq_def])
    · simp only [Bool.or_eq_false_iff] at hd
      simp only [resultOf] at hx ⊢
      exact ih e (by simp; omega) hx hd.2
    · exact hkid (by rw [resultOf.eq_def])
  case eMethodCall m =>
    rcases ks with _ | ⟨e, es⟩
    · exact hkid (by rw [resultOf.eq_def])
    · simp only [Bool.or_eq_false_iff] at hd
      simp only [resultOf] at hx ⊢
      exact ih e (by simp; omega) hx hd.2

theorem Branches.live {en : Ident} {m : String} {n r : Node} (h : Branches en m n r) :
    diverges m r = false := by
  have := diverges_resultOf (m := m) (startOf n) (by rw [h.result]; exact h.branching) h.counts
  rw [h.result] at this
  exact this

/-! ## `match` -/

theorem treatL_map {J : Job} {w : Where} {ts : List Target} {r : Role} :
    ∀ {ks : List Node} {tss : Nat → List Target} {rs : Nat → Role},
    (∀ i, i < ks.length → tss i = ts) → (∀ i, i < ks.length → rs i = r) →
    treatL J w tss rs ks = ks.map (treat J w ts r)
  | [], _, _, _, _ => rfl
  | k :: ks, tss, rs, h1, h2 => by
    rw [treatL, List.map_cons, h1 0 (by simp), h2 0 (by simp)]
    rw [treatL_map (ks := ks) (fun i hi => h1 (i + 1) (by simpa using hi))
      fun i hi => h2 (i + 1) (by simpa using hi)]

theorem treat_match {J : Job} {w : Where} {ts : List Target} {as : List Attr} {s : Node}
    {arms : List Node} (hb : J.branches = true)
    (hd : diverges J.marker (.mk .eMatch as (s :: arms)) = false) :
    treat J w ts .result (.mk .eMatch as (s :: arms)) =
      .mk .eMatch (strip as) (treat J w (through ts .eMatch as) .plain s ::
        arms.map (treat J w (through ts .eMatch as) .branch)) := by
  rw [treat.eq_def]
  simp only [role_result hb hd, hidesCode, assemble, carries, isExpression, treatL, Where.enter]
  simp only [kidRole, kidTargets, Bool.false_eq_true, if_false, if_true, ne_eq,
    not_true_eq_false, and_false, Nat.add_eq_zero_iff, Nat.one_ne_zero, not_false_eq_true, and_self]
  rw [treatL_map (ts := through ts .eMatch as) (r := .branch) (fun _ _ => rfl) (fun _ _ => rfl)]

/-- An arm of a `match` in result position. -/
theorem treat_arm {J : Job} {w : Where} {ts : List Target} {as : List Attr} {p : String}
    {gs : List Node} {b : Node} (hb : J.branches = true) (hl : gs.length ≤ 1) :
    treat J w ts .branch (.mk (.arm p) as (gs ++ [b])) =
      .mk (.arm p) (strip as) (gs.map (treat J w ts .plain) ++
        [if skipsArm J.marker (.mk (.arm p) as (gs ++ [b]))
          then treat J w ts (if marked "nested" as then .result else .plain) b
          else ctor J [] (treat J w ts .plain b)]) := by
  have hn : skipsArm J.marker (.mk (.arm p) as (gs ++ [b])) = false → marked "nested" as = false := by
    intro h
    simp only [skipsArm, Bool.or_eq_false_iff, hasNested, visibleL, visible, List.append_nil,
      List.any_cons, carries, Bool.true_and] at h
    exact h.1.2.1
  rw [treat.eq_def]
  dsimp only
  have hr : role J .branch (.arm p) as (gs ++ [b]) =
      if skipsArm J.marker (.mk (.arm p) as (gs ++ [b])) then .plain else .branch := by
    simp only [role, hb, Bool.true_eq_false, if_false]
  rw [hr]
  cases hs : skipsArm J.marker (.mk (.arm p) as (gs ++ [b])) with
  | true =>
    simp only [if_true, hidesCode, assemble, carries]
    rcases gs with _ | ⟨g, _ | ⟨_, _⟩⟩
    · simp [treatL, kidRole, kidTargets, through, isExpression, Where.enter]
    · simp [treatL, kidRole, kidTargets, through, isExpression, Where.enter]
    · simp at hl
  | false =>
    have hn' := hn hs
    simp only [hidesCode, assemble, carries]
    rcases gs with _ | ⟨g, _ | ⟨_, _⟩⟩
    · simp [treatL, kidRole, kidTargets, through, isExpression, Where.enter, hn', wrapLast]
    · simp [treatL, kidRole, kidTargets, through, isExpression, Where.enter, hn', wrapLast]
    · simp at hl

end AutoEnums
