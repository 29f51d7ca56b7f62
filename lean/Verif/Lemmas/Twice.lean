import Verif.Lemmas.Macros

/-! # Lemmas: no constructor is applied to a constructor call -/

namespace AutoEnums

open Spec

/-- A call of a constructor of `en`. -/
def applied (en : Ident) : Node → Bool
  | .mk .eCall _ [f, _] => isCtor en (f.kind, []) != 0
  | _ => false

mutual
/-- Somewhere a constructor of `en` is applied to a constructor call. -/
def doubled (en : Ident) : Node → Bool
  | .mk k as ks => (applied en (.mk k as ks) && ks.getLast?.any (applied en)) || (!hidesCode k && doubledL en ks)
def doubledL (en : Ident) : List Node → Bool
  | [] => false
  | n :: ns => doubled en n || doubledL en ns
end

variable {en : Ident}

theorem doubled_mk (k : Kind) (as : List Attr) (ks : List Node) : doubled en (.mk k as ks) =
    ((applied en (.mk k as ks) && ks.getLast?.any (applied en)) || (!hidesCode k && doubledL en ks)) := by
  rw [doubled]

theorem applied_not {k : Kind} {as : List Attr} {ks : List Node} (h : k ≠ .eCall) :
    applied en (.mk k as ks) = false := by
  unfold applied
  split
  · rename_i heq; injection heq with h1; exact absurd h1 h
  · rfl

theorem doubled_not {k : Kind} {as : List Attr} {ks : List Node} (h : k ≠ .eCall) :
    doubled en (.mk k as ks) = (!hidesCode k && doubledL en ks) := by
  rw [doubled_mk, applied_not h]
  simp

theorem doubledL_mem {ks : List Node} : doubledL en ks = false ↔ ∀ c ∈ ks, doubled en c = false := by
  induction ks with
  | nil => simp [doubledL]
  | cons a ks ih => simp [doubledL, ih]

theorem isCtor_variantPath (en v : Ident) (as : List Attr) :
    isCtor en (.ePath false (variantPath en v), as) ≠ 0 := by simp [isCtor, variantPath]

theorem applied_construct (as : List Attr) (v : Ident) (e : Node) :
    applied en (construct as en v e) = true := by
  simp [applied, construct, Node.kind, isCtor_variantPath]

/-- The specification's form. -/
theorem within_doubled {x n : Node} (h : Within x n) (hd : doubled en n = false) : doubled en x = false := by
  induction h with
  | here => exact hd
  | kid hk hc _ ih =>
    rw [doubled_mk, hk, Bool.or_eq_false_iff] at hd
    exact ih (doubledL_mem.mp (by simpa using hd.2) _ hc)

theorem not_twice {n : Node} (hd : doubled en n = false) (as : List Attr) (v : Ident) (e : Node)
    (h : Within (construct as en v e) n) : ¬ IsConstruct en e := by
  rintro ⟨as', v', a, rfl⟩
  have := within_doubled h hd
  rw [construct, doubled_mk, ← construct, applied_construct] at this
  simp [applied_construct] at this

/-! ## Code without constructors -/

theorem applied_fresh {n : Node} (h : ∀ l ∈ labels n, isCtor en l = 0) : applied en n = false := by
  unfold applied
  split
  · rename_i f _
    obtain ⟨k, as, ks⟩ := f
    have := h (k, as) (by
      rw [labels_mk]
      exact List.mem_cons_of_mem _ (mem_labelsL.mpr ⟨_, List.mem_cons_self, by simp⟩))
    have h2 : isCtor en (k, []) = 0 := by
      by_cases hp : ∃ p, k = .ePath false p
      · obtain ⟨p, rfl⟩ := hp
        unfold isCtor at this ⊢
        split at this
        · rename_i heq
          injection heq with h1 h2
          cases h1
          simpa using this
        · rename_i hn
          split
          · rename_i heq
            injection heq with h1 h2
            exact (hn _ _ _ (by rw [h1])).elim
          · rfl
      · unfold isCtor
        split
        · rename_i heq
          injection heq with h1 h2
          exact (hp ⟨_, h1⟩).elim
        · rfl
    simp [Node.kind, h2]
  · rfl

theorem doubled_fresh : ∀ (n : Node), (∀ l ∈ labels n, isCtor en l = 0) → doubled en n = false := by
  refine Node.ind ?_
  intro k as ks ih h
  rw [doubled_mk, applied_fresh h]
  have : doubledL en ks = false := doubledL_mem.mpr fun c hc => ih c hc (zero_kid h hc)
  simp [this]

/-! ## Up to the names of variants -/

theorem isCtor_blurK (k : Kind) (as : List Attr) : isCtor en (blurK en k, as) = isCtor en (k, as) := by
  by_cases h : ∃ p, k = .ePath false p
  · obtain ⟨p, rfl⟩ := h
    rw [blurK_blurPath]
    rcases blurPath_cases en p with ⟨v, rfl, h⟩ | ⟨_, h⟩
    · rw [h]; simp [isCtor, variantPath]
    · rw [h]
  · rw [blurK_other en fun p hp => h ⟨p, hp⟩]

theorem blurK_call {k : Kind} : blurK en k = .eCall ↔ k = .eCall := by
  by_cases h : ∃ p, k = .ePath false p
  · obtain ⟨p, rfl⟩ := h
    rw [blurK_blurPath]
    simp
  · rw [blurK_other en fun p hp => h ⟨p, hp⟩]

theorem applied_blur (n : Node) : applied en (blur en n) = applied en n := by
  obtain ⟨k, as, ks⟩ := n
  by_cases hk : k = .eCall
  · subst hk
    rw [blur]
    rcases ks with _ | ⟨⟨kf, af, ksf⟩, _ | ⟨a, _ | ⟨b, ks⟩⟩⟩
    · simp [blurL, blurK, applied]
    · simp [blurL, blurK, applied]
    · simp only [blurL, blur, blurK_call.mpr rfl, applied, Node.kind, isCtor_blurK]
    · simp [blurL, blurK, applied]
  · rw [blur, applied_not hk, applied_not (fun h => hk (blurK_call.mp h))]

theorem doubled_blur : ∀ (n : Node), doubled en (blur en n) = doubled en n := by
  refine Node.ind ?_
  intro k as ks ih
  have h1 : ∀ l : List Node, (∀ c ∈ l, c ∈ ks) → doubledL en (blurL en l) = doubledL en l := by
    intro l
    induction l with
    | nil => intro _; rfl
    | cons a l ihl =>
      intro h
      rw [blurL, doubledL, doubledL, ih a (h a (by simp)), ihl fun c hc => h c (by simp [hc])]
  have h2 : ∀ l : List Node, (blurL en l).getLast?.any (applied en) = l.getLast?.any (applied en) := by
    intro l
    induction l with
    | nil => rfl
    | cons a l ihl =>
      cases l with
      | nil => simp [blurL, applied_blur]
      | cons b l => simpa [blurL, List.getLast?_cons_cons] using ihl
  have h3 := applied_blur (en := en) (.mk k as ks)
  rw [blur] at h3
  rw [blur, doubled_mk, doubled_mk, h3, hidesCode_blur, h1 ks (fun _ h => h), h2]

/-! ## The treatment -/

theorem applied_treat {J : Job} {w : Where} {ts : List Target} {r : Role} {n : Node}
    (h : ∀ l ∈ labels n, isCtor J.en l = 0) (hm : isCallOf J.marker [n] = false) :
    applied J.en (treat J w ts r n) = false := by
  obtain ⟨k, as, ks⟩ := n
  rw [treat.eq_def]
  dsimp only
  cases k
  case eCall =>
    simp only [assemble, hidesCode, Bool.false_eq_true, if_false]
    rcases ks with _ | ⟨f, _ | ⟨a, _ | ⟨b, ks⟩⟩⟩ <;> simp only [treatL, applied]
    have hz := zero_kid h (c := f) (by simp)
    obtain ⟨kf, af, ksf⟩ := f
    have : ∀ w ts r, isCtor J.en ((treat J w ts r (.mk kf af ksf)).kind, []) = 0 := by
      intro w ts r
      have key : (treat J w ts r (.mk kf af ksf)).kind = kf ∨
          ∀ p, (treat J w ts r (.mk kf af ksf)).kind ≠ .ePath false p := by
        rw [treat.eq_def]
        dsimp only
        cases kf
        case eTry =>
          right
          intro p
          simp only [assemble]
          split
          · split <;> simp [Node.kind, tryMatch]
          · simp [Node.kind]
        case eMacro =>
          right
          intro p
          simp only [assemble]
          split
          · split <;> simp [Node.kind, ctor, construct]
          · simp [Node.kind]
        all_goals (left; simp only [assemble]; first | rfl | (split <;> rfl))
      rcases key with hk | hk
      · rw [hk]
        have h0 := hz (kf, af) (by simp)
        have := applied_fresh (en := J.en) (n := .mk .eCall [] [.mk kf [] [], .mk .eTuple [] []]) (by
          intro l hl
          simp [labels, labelsL] at hl
          rcases hl with rfl | rfl | rfl
          · rfl
          · unfold isCtor at h0 ⊢
            split at h0
            · rename_i heq
              injection heq with h1 h2
              subst h1
              simpa using h0
            · rename_i hn
              split
              · rename_i heq
                injection heq with h1 h2
                exact (hn _ _ _ (by rw [h1])).elim
              · rfl
          · rfl)
        simpa [applied, Node.kind] using this
      · unfold isCtor
        split
        · rename_i heq
          injection heq with h1 h2
          exact (hk _ h1).elim
        · rfl
    simp [this]
  case eMacro p t =>
    rcases ks with _ | ⟨e, _ | ⟨b, ks⟩⟩
    · simp [assemble, applied]
    · simp only [isCallOf] at hm
      simp only [assemble]
      rw [if_neg (by simpa using hm)]
      simp [applied]
    · simp [assemble, applied]
  case eTry =>
    simp only [assemble]
    split
    · split <;> simp [applied, tryMatch]
    · simp [applied]
  all_goals simp only [assemble]
  all_goals first
    | exact applied_not (by simp)
    | (split <;> exact applied_not (by simp))

theorem doubled_ctor {J : Job} {as : List Attr} {e : Node} (h1 : doubled J.en e = false)
    (h2 : applied J.en e = false) : doubled J.en (ctor J as e) = false := by
  rw [ctor, construct, doubled_mk]
  have : applied J.en (.mk (.ePath false (variantPath J.en "")) [] []) = false := applied_not (by simp)
  simp [doubledL, h1, h2, doubled_not]

theorem doubledL_wrapHead {J : Job} {ks : List Node} (h1 : doubledL J.en ks = false)
    (h2 : ∀ e, ks.head? = some e → applied J.en e = false) : doubledL J.en (wrapHead J ks) = false := by
  cases ks with
  | nil =>
    simp only [wrapHead, doubledL, Bool.or_false]
    exact doubled_ctor (by simp [doubled_mk, applied, doubledL]) (by simp [applied])
  | cons e es =>
    rw [doubledL, Bool.or_eq_false_iff] at h1
    simp only [wrapHead, doubledL, h1.2, Bool.or_false]
    exact doubled_ctor h1.1 (h2 e rfl)

theorem doubledL_wrapLast {J : Job} : ∀ {ks : List Node}, doubledL J.en ks = false →
    (∀ e, ks.getLast? = some e → applied J.en e = false) → doubledL J.en (wrapLast J ks) = false
  | [], _, _ => rfl
  | [e], h1, h2 => by
    simp only [doubledL, Bool.or_false] at h1
    simp only [wrapLast, doubledL, Bool.or_false]
    exact doubled_ctor h1 (h2 e rfl)
  | e :: e' :: es, h1, h2 => by
    rw [doubledL, Bool.or_eq_false_iff] at h1
    rw [wrapLast, doubledL, h1.1, Bool.false_or]
    exact doubledL_wrapLast h1.2 fun e he => h2 e (by simpa [List.getLast?_cons_cons] using he)

theorem doubledL_wrapAll {J : Job} {ks : List Node} (h : doubledL J.en ks = false) :
    doubledL J.en (wrapAll J ks) = false := by
  have := doubled_ctor (J := J) (as := []) (e := .mk (.eBlock none) [] ks)
    (by simp [doubled_mk, applied, h]) (by simp [applied])
  simp [wrapAll, doubledL, doubled_mk, applied, this]

theorem doubled_tryMatch {as : List Attr} {en v : Ident} {e : Node} (h : doubled en e = false) :
    doubled en (tryMatch as en v e) = false := by
  simp [tryMatch, construct, doubled_mk, doubledL, applied, h, isCtor, Node.kind, variantPath]

theorem getLast?_treatL {J : Job} {w : Where} : ∀ {ks : List Node} {ts : Nat → List Target}
    {rs : Nat → Role} {e : Node}, (treatL J w ts rs ks).getLast? = some e →
    ∃ c ts r, ks.getLast? = some c ∧ e = treat J w ts r c
  | [], _, _, _, h => by simp [treatL] at h
  | [a], ts, rs, e, h => by
    simp [treatL] at h
    exact ⟨a, _, _, rfl, h.symm⟩
  | a :: b :: ks, ts, rs, e, h => by
    have h : (treatL J w (fun i => ts (i + 1)) (fun i => rs (i + 1)) (b :: ks)).getLast? = some e := by
      rw [treatL, treatL, List.getLast?_cons_cons] at h
      rw [treatL]
      exact h
    obtain ⟨c, ts, r, h1, h2⟩ := getLast?_treatL h
    exact ⟨c, ts, r, by simpa [List.getLast?_cons_cons] using h1, h2⟩

theorem head?_treatL {J : Job} {w : Where} {ks : List Node} {ts : Nat → List Target}
    {rs : Nat → Role} {e : Node} (h : (treatL J w ts rs ks).head? = some e) :
    ∃ c ts r, ks.head? = some c ∧ e = treat J w ts r c := by
  cases ks with
  | nil => simp [treatL] at h
  | cons a ks =>
    simp [treatL] at h
    exact ⟨a, _, _, rfl, h.symm⟩

theorem isCallOf_head {m : String} {ks : List Node} {c : Node} (h : ks.head? = some c) :
    isCallOf m [c] = isCallOf m ks := by
  cases ks with
  | nil => cases h
  | cons a ks =>
    cases h
    obtain ⟨k, as, ls⟩ := c
    cases k <;> rfl

theorem diverges_call {m : String} {c : Node} (h : diverges m c = false) : isCallOf m [c] = false := by
  obtain ⟨k, as, ks⟩ := c
  cases k <;> try rfl
  rename_i p t
  rw [diverges.eq_def] at h
  dsimp only at h
  simp only [Bool.or_eq_false_iff, divergingMacro] at h
  simpa [isCallOf] using h.2.2

theorem doubled_treat {J : Job} : ∀ (n : Node), (∀ l ∈ labels n, isCtor J.en l = 0) →
    ∀ (w : Where) (ts : List Target) (r : Role), doubled J.en (treat J w ts r n) = false := by
  refine Node.ind ?_
  intro k as ks ih hz w ts r
  rw [treat.eq_def]
  dsimp only
  cases hk : hidesCode k with
  | true =>
    simp only [if_true]
    have hL : doubledL J.en ks = false := doubledL_mem.mpr fun c hc => doubled_fresh c (zero_kid hz hc)
    cases k <;> try (cases hk; done)
    case eMacro p t =>
      simp only [assemble]
      rcases ks with _ | ⟨e, _ | ⟨b, ks⟩⟩
      · simp [doubled_mk, applied, hidesCode]
      · simp only
        split
        · have he := zero_kid hz (c := e) (by simp)
          exact doubled_ctor (doubled_fresh e he) (applied_fresh he)
        · simp [doubled_mk, applied, hidesCode]
      · simp [doubled_mk, applied, hidesCode]
    all_goals simp [assemble, doubled_mk, applied, hidesCode]
  | false =>
    simp only [Bool.false_eq_true, if_false]
    generalize hks' : treatL J (w.enter k) (fun i => kidTargets ts (role J r k as ks) k as i)
        (fun i => kidRole (role J r k as ks) k as ks.length i) ks = ks'
    have hL : doubledL J.en ks' = false := by
      rw [← hks']
      have : ∀ (l : List Node) (w : Where) (ts : Nat → List Target) (rs : Nat → Role), (∀ c ∈ l, c ∈ ks) →
          doubledL J.en (treatL J w ts rs l) = false := by
        intro l
        induction l with
        | nil => intro _ _ _ _; simp [treatL, doubledL]
        | cons a l ihl =>
          intro w ts rs h
          rw [treatL, doubledL, ih a (h a (by simp)) (zero_kid hz (h a (by simp))),
            ihl _ _ _ fun c hc => h c (by simp [hc])]
          rfl
      exact this ks _ _ _ fun _ h => h
    have hhead : isCallOf J.marker ks = false → ∀ e, ks'.head? = some e → applied J.en e = false := by
      intro hm e he
      rw [← hks'] at he
      obtain ⟨c, ts, r, h1, rfl⟩ := head?_treatL he
      exact applied_treat (zero_kid hz (List.mem_of_mem_head? h1)) (by rw [isCallOf_head h1]; exact hm)
    by_cases hcall : k = .eCall
    · subst hcall
      have := applied_treat (J := J) (w := w) (ts := ts) (r := r) hz rfl
      rw [treat.eq_def] at this
      dsimp only at this
      simp only [hk, Bool.false_eq_true, if_false, hks'] at this
      simp only [assemble] at this ⊢
      rw [doubled_mk, this, hL]
      simp
    · unfold assemble
      dsimp only
      split
      · split
        · rename_i h
          rw [doubled_not (by simp), doubledL_wrapHead hL (hhead (by simp only [Bool.and_eq_true, Bool.not_eq_true'] at h; exact h.2))]
          simp
        · rw [doubled_not (by simp), hL]; simp
      · split
        · rename_i h
          rw [doubled_not (by simp), doubledL_wrapHead hL (hhead (by simp only [Bool.and_eq_true, Bool.not_eq_true'] at h; exact h.2))]
          simp
        · rw [doubled_not (by simp), hL]; simp
      · split
        · rename_i e
          split
          · exact doubled_tryMatch (by simpa [doubledL] using hL)
          · rw [doubled_not (by simp), hL]; simp
        · rw [doubled_not (by simp), hL]; simp
      · cases hk
      · rename_i p
        rw [doubled_not (by simp)]
        split
        · rename_i hr
          rw [doubledL_wrapLast hL ?_]
          · simp
          intro e he
          rw [← hks'] at he
          obtain ⟨c, ts', r', h1, rfl⟩ := getLast?_treatL he
          refine applied_treat (zero_kid hz (List.mem_of_getLast? h1)) (diverges_call ?_)
          unfold role at hr
          split at hr
          · cases hr
          · split at hr <;> try (cases hr; done)
            · split at hr
              · cases hr
              · rename_i hskip
                rename_i heq _
                unfold skipsArm at hskip
                simp only [h1, Bool.not_eq_true, Bool.or_eq_false_iff] at hskip
                exact hskip.2
            all_goals (try (split at hr <;> cases hr)) <;> simp_all
        · rw [hL]; simp
      · rw [doubled_not (by simp)]
        split
        · rw [doubledL_wrapAll hL]; simp
        · rw [hL]; simp
      · rw [doubled_not (by simp)]
        split
        · rw [doubledL_wrapAll hL]; simp
        · rw [hL]; simp
      · rw [doubled_not hcall, hL]; simp

/-! ## The whole input -/

theorem doubled_treatExpr {m : String} {semi : Bool} {e : Node} (h : ∀ l ∈ labels e, isCtor en l = 0) :
    doubled en (treatExpr en m semi e) = false := by
  unfold treatExpr
  split
  · rename_i b
    have he : (closureJob en m b).en = en := by unfold closureJob; split <;> rfl
    rw [doubled_not (by simp), doubledL, doubledL]
    have := doubled_treat (J := closureJob en m b) b (by rw [he]; exact zero_kid h (by simp)) {} []
      (closureJob en m b).start
    rw [he] at this
    simp [this]
  · exact doubled_treat (J := exprJob en m semi) e h _ _ _

theorem doubled_treatInput {m : String} {n : Node} (h : ∀ l ∈ labels n, isCtor en l = 0) :
    doubled en (treatInput en m n) = false := by
  unfold treatInput
  split
  · rw [doubled_not (by simp), doubledL, doubledL, doubled_treatExpr (zero_kid h (by simp))]
    simp
  · rename_i els
    have : doubledL en els = false := doubledL_mem.mpr fun c hc => doubled_fresh c (zero_kid h (by simp [hc]))
    rw [doubled_not (by simp), doubledL, doubled_treatExpr (zero_kid h (by simp)), this]
    simp
  · rename_i name ret as asb ss
    have he : (fnJob en m ret (.mk .block asb ss)).en = en := by unfold fnJob; split <;> (try split) <;> rfl
    have : ∀ (l : List Node) (w : Where) (ts : Nat → List Target) (rs : Nat → Role), (∀ c ∈ l, c ∈ ss) →
        doubledL en (treatL (fnJob en m ret (.mk .block asb ss)) w ts rs l) = false := by
      intro l
      induction l with
      | nil => intro _ _ _ _; simp [treatL, doubledL]
      | cons a l ihl =>
        intro w ts rs hl
        have := doubled_treat (J := fnJob en m ret (.mk .block asb ss)) a
          (by rw [he]; exact zero_kid (zero_kid h (List.mem_singleton.mpr rfl)) (hl a (by simp))) w (ts 0) (rs 0)
        rw [he] at this
        rw [treatL, doubledL, this, ihl _ _ _ fun c hc => hl c (by simp [hc])]
        rfl
    rw [doubled_not (by simp), doubledL, doubledL, doubled_not (by simp), treatBody, this ss _ _ _ fun _ h => h]
    simp
  · exact doubled_treatExpr h

theorem doubled_retype (b : Bool) (traits : List Path) (n : Node) :
    doubled en (retype b traits n) = doubled en n := by
  unfold retype
  split
  · split
    · rw [doubled_not (by simp), doubled_not (by simp)]; rfl
    · rfl
  · rfl

theorem doubled_placeEnum (k : Nat) (ds : List Path) {n : Node} (h : doubled en n = false) :
    doubled en (placeEnum (enumDecl en k ds) n) = false := by
  have hg : doubled en (enumDecl en k ds) = false := by
    rw [enumDecl, doubled_not (by simp)]
    simp [hidesCode]
  have hi : ∀ e, doubled en e = false → doubled en (inBlock (enumDecl en k ds) e) = false := by
    intro e he
    rw [inBlock, doubled_not (by simp), doubledL, hg, doubledL, doubled_not (by simp)]
    simp [doubledL, he]
  generalize enumDecl en k ds = g at *
  unfold placeEnum
  split
  · rw [doubled_not (by simp)] at h ⊢
    simp only [hidesCode, Bool.not_false, Bool.true_and, doubledL, Bool.or_false] at h ⊢
    exact hi _ h
  · rw [doubled_not (by simp)] at h ⊢
    simp only [hidesCode, Bool.not_false, Bool.true_and, doubledL, Bool.or_eq_false_iff] at h ⊢
    exact ⟨hi _ h.1, h.2⟩
  · rw [doubled_not (by simp)] at h ⊢
    simp only [hidesCode, Bool.not_false, Bool.true_and, doubledL, Bool.or_false] at h ⊢
    rw [doubled_not (by simp)] at h ⊢
    simp only [hidesCode, Bool.not_false, Bool.true_and, doubledL, hg, Bool.false_or] at h ⊢
    exact h
  · exact hi _ h

theorem Treats.notDoubled {b : Bool} {traits : List Path} {m : String} {n out : Node}
    (h : Treats b traits en m n out) (hs : Simple en m n) : doubled en out = false := by
  obtain ⟨n', h1, ho⟩ := h
  have : doubled en n' = false → doubled en out = false := by
    rcases ho with rfl | ⟨k, ds, rfl⟩
    · exact id
    · exact doubled_placeEnum _ _
  refine this ?_
  rw [← doubled_blur, h1, doubled_blur, doubled_retype]
  exact doubled_treatInput (isCtor_zero hs.fresh)

end AutoEnums
