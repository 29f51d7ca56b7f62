import Verif.Lemmas.Whole
import Verif.Lemmas.Virt

/-! # Attributes without arguments under type analysis -/

namespace AutoEnums

open Spec Judg

/-- Neither a call of the macro `m` nor annotated `#[nested]`. -/
def Spec.unmarked (m : String) (l : Label) : Bool :=
  (match l.1 with
    | .eMacro p _ => p != ⟨false, [⟨m, none⟩]⟩
    | _ => true) && !(carries l.1 && marked "nested" l.2)

/-! ## Counting the constructors of the treatment -/

theorem weighL_isCtor_wrapHead (J : Job) (l : List Node) :
    weighL (isCtor J.en) (wrapHead J l) = weighL (isCtor J.en) l + 1 := by
  cases l <;> simp [wrapHead, ctor, construct, isCtor_variant] <;>
    simp [isCtor] <;> omega

theorem weighL_isCtor_wrapLast (J : Job) : ∀ l : List Node,
    weighL (isCtor J.en) (wrapLast J l) = weighL (isCtor J.en) l + if l = [] then 0 else 1
  | [] => rfl
  | [e] => by
    simp [wrapLast, ctor, construct, isCtor_variant]; simp [isCtor]; omega
  | e :: e' :: es => by
    have := weighL_isCtor_wrapLast J (e' :: es)
    simp [wrapLast] at this ⊢
    omega

theorem weighL_isCtor_wrapAll (J : Job) (l : List Node) :
    weighL (isCtor J.en) (wrapAll J l) = weighL (isCtor J.en) l + 1 := by
  simp [wrapAll, ctor, construct, isCtor_variant]; simp [isCtor]; omega

theorem isCallOf_mac (m : String) (ks : List Node) :
    isCallOf m ks = (ks.head?.map valOf == some (.mac ⟨false, [⟨m, none⟩]⟩)) := by
  unfold isCallOf
  split
  · rw [Bool.eq_iff_iff]; simp [valOf]
  · rename_i h
    cases ks with
    | nil => rfl
    | cons e l =>
      cases e with
      | mk k as es =>
      rw [Eq.comm, beq_eq_false_iff_ne]
      simp only [List.head?_cons, Option.map_some, valOf]
      split
      · exact absurd rfl (h _ _ _ _ _)
      · split
        · simp
        · unfold calleeOf
          split <;> (try split) <;> simp
      · split <;> simp

theorem ours_closure {m : String} {l : List Exit} (h : ∀ a ∈ l, a.loc.closure = true) :
    ourCount .ret m l = 0 := ourCount_zero fun a ha => .inl (h a ha)

theorem treat_count {J : Job} (h1 : J.returns = true) (h2 : J.tries = false) : ∀ (n : Node)
    (w : Where) (ts : List Target) (r : Role), w.tokens = false → shaped n = true →
    (visible n).all (unmarked J.marker) = true →
    ctors J.en (treat J w ts r n) = ctors J.en (pend J (hits ts) r n) +
      if w.closure then 0 else ourCount .ret J.marker (exits false w n) := by
  intro n
  induction n using Node.ind with
  | h k as ks ih =>
    intro w ts r hw hs hu
    have hsl : shapedL ks = true := by
      unfold shaped at hs
      simp only [Bool.and_eq_true] at hs
      exact hs.2
    rw [visible, List.all_cons, Bool.and_eq_true] at hu
    obtain ⟨hu0, hu⟩ := hu
    have hrole : roleP J r k as ks = role J r k as ks := by
      unfold roleP
      split
      · rename_i hr
        subst hr
        unfold role
        split
        · rfl
        · dsimp only
          split
          · rename_i hc
            simp only [Bool.and_eq_true] at hc
            simp only [unmarked, Bool.and_eq_true, Bool.not_eq_true'] at hu0
            have : carries k = true := by
              unfold carries; split <;> first | rfl | exact hc.1.1
            rw [this, hc.1.2] at hu0
            simp at hu0
          · rfl
      · rfl
    have hkr : ∀ r i, kidRoleP r k ks.length i = kidRole r k as ks.length i := by
      intro r i
      have hn : marked "nested" as = false ∨ carries k = false := by
        simp only [unmarked, Bool.and_eq_true, Bool.not_eq_true', Bool.and_eq_false_iff] at hu0
        exact hu0.2.symm
      cases k <;> first
        | rfl
        | (simp only [kidRoleP, kidRole]; done)
        | (rename_i b; cases b <;> rfl)
        | (simp only [carries, Bool.true_eq_false, or_false] at hn; simp [kidRoleP, kidRole, hn])
    have hl : ∀ (w : Where), w.tokens = false → ∀ (l : List Node) (tss : Nat → List Target)
        (rs : Nat → Role), (∀ c ∈ l, c ∈ ks) → shapedL l = true →
        (visibleL l).all (unmarked J.marker) = true →
        weighL (isCtor J.en) (treatL J w tss rs l) =
          weighL (isCtor J.en) (pendL J (fun i => hits (tss i)) rs l) +
          if w.closure then 0 else ourCount .ret J.marker (exitsL false w l) := by
      intro w hw l
      induction l with
      | nil => intros; simp [treatL, pendL, exitsL, ourCount]
      | cons a l ihl =>
        intro tss rs hm hsh hv
        simp only [shapedL, Bool.and_eq_true] at hsh
        simp only [visibleL, List.all_append, Bool.and_eq_true] at hv
        have e1 := ih a (hm a (by simp)) w (tss 0) (rs 0) hw hsh.1 hv.1
        have e2 := ihl (fun i => tss (i + 1)) (fun i => rs (i + 1)) (fun c hc => hm c (by simp [hc])) hsh.2 hv.2
        simp only [ctors] at e1
        simp only [treatL, pendL, exitsL, weighL_cons, ourCount_append, e1, e2]
        split <;> omega
    have hlen : ∀ (w : Where) (l : List Node) (tss : Nat → List Target) (rs : Nat → Role)
        , (treatL J w tss rs l = [] ↔ l = []) ∧ (pendL J (fun i => hits (tss i)) rs l = [] ↔ l = []) := by
      intro w l tss rs
      cases l <;> simp [treatL, pendL]
    rw [treat, pend, hrole]
    generalize role J r k as ks = r'
    simp only [hkr, kidH_hits]
    by_cases hh : hidesCode k = true
    · have hz : ourCount .ret J.marker (exits false w (.mk k as ks)) = 0 := by
        cases k <;> first
          | (simp [hidesCode] at hh; done)
          | exact ourCount_zero fun a ha => .inr (exits_opaque rfl a ha)
          | (unfold exits; simp [skips, ourCount])
      rw [hz]
      simp only [hh, if_true]
      unfold assemble kidsP
      cases k <;> first
        | (simp [hidesCode] at hh; done)
        | (simp [ctors, isCtor_attrs J.en _ _ as]; done)
        | skip
      rename_i p x
      simp only [unmarked, Bool.and_eq_true, bne_iff_ne] at hu0
      split <;> (dsimp only; split) <;> simp [ctors, isCtor_attrs J.en _ (strip as) as, hu0.1]
    · have hh : hidesCode k = false := by simpa using hh
      have hv : (visibleL ks).all (unmarked J.marker) = true := by
        rw [hh] at hu
        simpa using hu
      have hwe : (w.enter k).tokens = false := by
        unfold Where.enter
        split <;> first | exact hw | (simp [hidesCode] at hh)
      have H := hl (w.enter k) hwe ks (fun i => kidTargets ts r' k as i)
        (fun i => kidRole r' k as ks.length i) (fun _ h => h) hsl hv
      have L := hlen (w.enter k) ks (fun i => kidTargets ts r' k as i)
        (fun i => kidRole r' k as ks.length i)
      simp only [hh, Bool.false_eq_true, if_false]
      generalize treatL J (w.enter k) (fun i => kidTargets ts r' k as i)
        (fun i => kidRole r' k as ks.length i) ks = A at *
      generalize pendL J (fun i => hits (kidTargets ts r' k as i))
        (fun i => kidRole r' k as ks.length i) ks = B at *
      clear hl hlen ih
      have hA : ∀ as' l, ctors J.en (.mk k as' l) = isCtor J.en (k, as) + weighL (isCtor J.en) l := by
        intro as' l
        simp [ctors, isCtor_attrs J.en k as' as]
      by_cases hr : k = .eReturn
      · subst hr
        rw [hA]
        unfold exits
        simp only [skips, Bool.false_eq_true, if_false, if_true, reduceCtorEq, List.append_nil,
          ourCount_append, ourCount_one, assemble, kidsP, Where.enter, h1, Bool.true_and] at H ⊢
        simp only [Exit.ours, hw, valueOf, isCallOf_mac]
        rw [show isNever as = marked "never" as from rfl]
        by_cases hc : w.closure = true
        · simp [hc] at H ⊢
          rw [hA, H]
        · simp only [hc, Bool.false_eq_true, if_false] at H ⊢
          by_cases hn : marked "never" as = true
          · simp [hn, hA, H]; omega
          · by_cases hm : ks.head?.map valOf = some (.mac ⟨false, [⟨J.marker, none⟩]⟩)
            · simp [hn, hm, hA, H]; omega
            · simp [hn, hm, hA, H, weighL_isCtor_wrapHead]
              omega
      · have hwc : (if w.closure = true then 0 else ourCount .ret J.marker (exits false w (.mk k as ks))) =
            if (w.enter k).closure = true then 0
            else ourCount .ret J.marker (exitsL false (w.enter k) ks) := by
          by_cases hc : w.closure = true
          · have : (w.enter k).closure = true := by
              unfold Where.enter
              split <;> first | rfl | exact hc
            simp [hc, this]
          · simp only [hc, Bool.false_eq_true, if_false]
            cases k <;> first
              | exact absurd rfl hr
              | (simp [hidesCode] at hh; done)
              | (unfold exits; simp [skips, Where.enter, ourCount_append, ourCount_one, hc]; done)
              | skip
            · unfold exits; simp [skips, Where.enter, ourCount]
            · match ks, hs with
              | [e], _ => unfold exits; simp [skips, Where.enter, hc]
        rw [hwc, hA]
        generalize (if (w.enter k).closure = true then 0
            else ourCount .ret J.marker (exitsL false (w.enter k) ks)) = c at *
        cases k <;> simp only [assemble, kidsP]
        all_goals first
          | exact absurd rfl hr
          | (simp [hidesCode] at hh; done)
          | (rw [hA]; omega)
          | skip
        · rw [hA]
          split
          · rw [weighL_isCtor_wrapAll, weighL_isCtor_wrapAll]; omega
          · omega
        · rw [hits_through]
          split
          · rw [hA, weighL_isCtor_wrapHead, weighL_isCtor_wrapHead]; omega
          · rw [hA]; omega
        · rw [h2]
          simp only [Bool.false_and, Bool.false_eq_true, if_false]
          split <;> (rw [hA]; omega)
        · rw [hA]
          split
          · rw [weighL_isCtor_wrapAll, weighL_isCtor_wrapAll]; omega
          · omega
        · rw [hA]
          split
          · rw [weighL_isCtor_wrapLast, weighL_isCtor_wrapLast]
            by_cases hk : ks = []
            · simp only [L.1.mpr hk, L.2.mpr hk, if_true] at H ⊢; omega
            · rw [if_neg (by rwa [L.1]), if_neg (by rwa [L.2])]; omega
          · omega

/-! ## Nothing to wrap -/

/-- If no constructor is pending, nothing is. -/
theorem pend_count (J : Job) : ∀ (n : Node) (H : Hit) (r : Role),
    ctors J.en n ≤ ctors J.en (pend J H r n) ∧
    (ctors J.en (pend J H r n) = ctors J.en n → pend J H r n = n) := by
  intro n
  induction n using Node.ind with
  | h k as ks ih =>
    intro H r
    have hl : ∀ (l : List Node) (Hs : Nat → Hit) (rs : Nat → Role), (∀ c ∈ l, c ∈ ks) →
        weighL (isCtor J.en) l ≤ weighL (isCtor J.en) (pendL J Hs rs l) ∧
        (weighL (isCtor J.en) (pendL J Hs rs l) = weighL (isCtor J.en) l → pendL J Hs rs l = l) := by
      intro l
      induction l with
      | nil => intro _ _ _; rw [pendL]; exact ⟨Nat.le_refl _, fun _ => rfl⟩
      | cons a l ihl =>
        intro Hs rs hm
        obtain ⟨a1, a2⟩ := ih a (hm a (by simp)) (Hs 0) (rs 0)
        obtain ⟨b1, b2⟩ := ihl (fun i => Hs (i + 1)) (fun i => rs (i + 1))
          fun c hc => hm c (by simp [hc])
        simp only [ctors] at a1 a2
        simp only [pendL, weighL_cons]
        exact ⟨by omega, fun h => by rw [a2 (by omega), b2 (by omega)]⟩
    rw [pend]
    generalize roleP J r k as ks = r'
    have hk : ∃ ks', (if hidesCode k = true then ks
        else pendL J (fun i => kidH H r' k as i) (fun i => kidRoleP r' k ks.length i) ks) = ks' ∧
        weighL (isCtor J.en) ks ≤ weighL (isCtor J.en) ks' ∧
        (weighL (isCtor J.en) ks' = weighL (isCtor J.en) ks → ks' = ks) := by
      refine ⟨_, rfl, ?_⟩
      split
      · exact ⟨Nat.le_refl _, fun _ => rfl⟩
      · exact hl ks _ _ fun _ h => h
    obtain ⟨ks', hk0, hk1, hk2⟩ := hk
    rw [hk0]
    have hp : weighL (isCtor J.en) ks' < weighL (isCtor J.en) (kidsP J H r' k as ks ks') ∨
        kidsP J H r' k as ks ks' = ks' := by
      unfold kidsP
      split
      · split
        · rw [weighL_isCtor_wrapHead]; exact .inl (by omega)
        · exact .inr rfl
      · split
        · rw [weighL_isCtor_wrapLast]
          split
          · rename_i h; subst h; exact .inr rfl
          · exact .inl (by omega)
        · exact .inr rfl
      · split
        · rw [weighL_isCtor_wrapAll]; exact .inl (by omega)
        · exact .inr rfl
      · split
        · rw [weighL_isCtor_wrapAll]; exact .inl (by omega)
        · exact .inr rfl
      · exact .inr rfl
    simp only [ctors, weigh_mk]
    rcases hp with hp | hp
    · exact ⟨by omega, fun h => by omega⟩
    · rw [hp]
      exact ⟨by omega, fun h => by rw [hk2 (by omega)]⟩

theorem pendL_count (J : Job) : ∀ (l : List Node) (Hs : Nat → Hit) (rs : Nat → Role),
    weighL (isCtor J.en) l ≤ weighL (isCtor J.en) (pendL J Hs rs l) ∧
    (weighL (isCtor J.en) (pendL J Hs rs l) = weighL (isCtor J.en) l → pendL J Hs rs l = l) := by
  intro l
  induction l with
  | nil => intro _ _; rw [pendL]; exact ⟨Nat.le_refl _, fun _ => rfl⟩
  | cons a l ihl =>
    intro Hs rs
    obtain ⟨a1, a2⟩ := pend_count J a (Hs 0) (rs 0)
    obtain ⟨b1, b2⟩ := ihl (fun i => Hs (i + 1)) (fun i => rs (i + 1))
    simp only [ctors] at a1 a2
    simp only [pendL, weighL_cons]
    exact ⟨by omega, fun h => by rw [a2 (by omega), b2 (by omega)]⟩

theorem treatL_count {J : Job} (h1 : J.returns = true) (h2 : J.tries = false) {w : Where}
    (hw : w.tokens = false) (hc : w.closure = false) : ∀ (l : List Node) (tss : Nat → List Target)
    (rs : Nat → Role), shapedL l = true → (visibleL l).all (unmarked J.marker) = true →
    weighL (isCtor J.en) (treatL J w tss rs l) =
      weighL (isCtor J.en) (pendL J (fun i => hits (tss i)) rs l) +
      ourCount .ret J.marker (exitsL false w l) := by
  intro l
  induction l with
  | nil => intros; simp [treatL, pendL, exitsL, ourCount]
  | cons a l ihl =>
    intro tss rs hsh hv
    simp only [shapedL, Bool.and_eq_true] at hsh
    simp only [visibleL, List.all_append, Bool.and_eq_true] at hv
    have e1 := treat_count h1 h2 a w (tss 0) (rs 0) hw hsh.1 hv.1
    have e2 := ihl (fun i => tss (i + 1)) (fun i => rs (i + 1)) hsh.2 hv.2
    simp only [ctors, hc, Bool.false_eq_true, if_false] at e1
    simp only [treatL, pendL, exitsL, weighL_cons, ourCount_append, e1, e2]
    omega

/-- Up to the variants of an enum that does not occur means equal. -/
theorem alike_eq_of_zero {en : Ident} : ∀ {b : Node}, ctors en b = 0 → ∀ {a}, Alike en a b →
    ctors en a = 0 → a = b := by
  have hk : ∀ (k k' : Kind) (as : List Attr), isCtor en (k, as) = 0 → isCtor en (k', as) = 0 →
      blurK en k' = blurK en k → k' = k := by
    intro k k' as h1 h2 h
    have hid : ∀ k : Kind, isCtor en (k, as) = 0 → blurK en k = k := by
      intro k hk
      unfold blurK
      split
      · split
        · rename_i h; subst h; simp [isCtor] at hk
        · rfl
      · rfl
    rwa [hid _ h1, hid _ h2] at h
  intro b
  induction b using Node.ind with
  | h k as ks ih =>
    intro hb a h ha
    obtain ⟨k', ks', rfl, h1, h2⟩ := h.inv
    simp only [ctors, weigh_mk, Nat.add_eq_zero_iff] at hb ha
    rw [hk _ _ as hb.1 ha.1 h1]
    congr 1
    have : ∀ l l', (∀ c ∈ l, c ∈ ks) → weighL (isCtor en) l = 0 → weighL (isCtor en) l' = 0 →
        AlikeL en l' l → l' = l := by
      intro l
      induction l with
      | nil => intro l' _ _ _ h; exact alikeL_nil h
      | cons x l ihl =>
        intro l' hm h1 h2 h
        obtain ⟨y, m, rfl, g1, g2⟩ := alikeL_inv h
        simp only [weighL_cons, Nat.add_eq_zero_iff] at h1 h2
        rw [ih x (hm x (by simp)) h1.1 g1 h2.1, ihl m (fun c hc => hm c (by simp [hc])) h1.2 h2.2 g2]
    exact this ks ks' (fun _ h => h) hb.2 ha.2 h2

/-! ## The visit that looks for inner attributes only -/

theorem mapA_stay {f : Cx → Node → Cx × Node} : ∀ {l : List Node} {cx : Cx},
    (∀ c ∈ l, ∀ cx, ∃ ps, f cx c = ({ cx with panics := ps }, c)) →
    ∃ ps, mapA f cx l = ({ cx with panics := ps }, l) := by
  intro l
  induction l with
  | nil => intro cx _; exact ⟨cx.panics, rfl⟩
  | cons a l ih =>
    intro cx h
    obtain ⟨p1, h1⟩ := h a (by simp) cx
    obtain ⟨p2, h2⟩ := ih (cx := { cx with panics := p1 }) fun c hc => h c (by simp [hc])
    exact ⟨p2, by simp only [mapA, h1, h2]⟩

theorem walk_stay {f : Cx → Node → Cx × Node} {n : Node} {cx : Cx}
    (h : n.kind.isOpaque = false → ∀ c ∈ n.kids, ∀ cx, ∃ ps, f cx c = ({ cx with panics := ps }, c)) :
    ∃ ps, walk f cx n = ({ cx with panics := ps }, n) := by
  cases n with
  | mk k as ks =>
    simp only [walk]
    split
    · exact ⟨cx.panics, rfl⟩
    · rename_i ho
      obtain ⟨ps, h⟩ := mapA_stay (cx := cx) (h (by simpa [Node.kind] using ho))
      exact ⟨ps, by simp only [Node.kids] at h; rw [h]⟩

theorem dummy_stay (env : Env) : ∀ f sc cx n, hasAttr NAME n = false →
    ∃ ps, visit env f .dummy sc cx n = ({ cx with panics := ps }, n) := by
  intro f
  induction f with
  | zero => intro sc cx n _; exact ⟨_, rfl⟩
  | succ f ih =>
    intro sc cx n h
    have hw : ∀ sc cx, ∃ ps, walk (visit env f .dummy sc) cx n = ({ cx with panics := ps }, n) :=
      fun sc cx => walk_stay fun ho c hc cx => ih sc cx c (hasAttr_kids h ho c hc)
    have hwe : ∀ (e : Node), hasAttr NAME e = false → ∀ b,
        ∃ ps, vsVisitExpr env (visit env f) .dummy sc cx e b = ({ cx with panics := ps }, e) := by
      intro e he b
      simp only [vsVisitExpr, hasAttr_none he]
      exact walk_stay fun ho c hc cx => ih sc cx c (hasAttr_kids he ho c hc)
    simp only [visit, dummyStep, attrs_any h, Bool.false_eq_true, if_false]
    split
    · split
      · exact ⟨cx.panics, rfl⟩
      · exact hwe n h false
    · split
      · split
        · exact ⟨cx.panics, rfl⟩
        · unfold vsVisitStmt
          split
          · obtain ⟨ps, h⟩ := hwe _ (hasAttr_kids h rfl _ (List.mem_cons_self ..)) _
            exact ⟨ps, by rw [h]⟩
          · rw [hasAttr_none h]
            exact hw sc cx
          · exact ⟨cx.panics, rfl⟩
      · exact hw sc cx

/-! ## Abandoned expansions -/

/-- If no branch was found, the expression is as before. -/
theorem childExpr_idle {J : Job} {cx : Cx} {e : Node} (hJ : Does J cx) (he : isExprNode e = true)
    (hf : Fine J [] J.start e) (hid : cx.ident = J.en) (hv0 : cx.variants = [])
    (hv : (childExpr cx e).1.variants = []) (hc : (childExpr cx e).1.errs = [])
    (hn : names e = 0) (h0 : ctors J.en e = 0) : (childExpr cx e).2 = e := by
  have h1 := target_pend hJ he hf
  have h2 := (childExpr_tr (env := ⟨fun _ => 0, false⟩) e cx).own rfl hn
  have h3 := h2.count hc
  rw [hid, hv, hv0, h0] at h3
  have h4 : ctors J.en (childExpr cx e).2 = 0 := by simpa using h3
  have h5 := (pend_count J e (hits []) J.start).2 (by rw [← h1.ctors, h4, h0])
  rw [h5] at h1
  exact alike_eq_of_zero h0 h1 h4

/-- The same for the body of a function. -/
theorem childLast_idle {J : Job} {cx : Cx} {ss : List Node} (hJ : Does J cx)
    (ho : ordinaryBody J ss = true) (hid : cx.ident = J.en) (hv0 : cx.variants = [])
    (hv : (childLast cx ss).1.variants = []) (hc : (childLast cx ss).1.errs = [])
    (hn : names (.mk .block [] ss) = 0) (h0 : weighL (isCtor J.en) ss = 0) :
    (childLast cx ss).2 = ss ∧
    weighL (isCtor J.en) (pendL J (fun _ => hits []) (bodyRole J ss.length) ss) = 0 := by
  unfold ordinaryBody at ho
  simp only [Bool.and_eq_true, Bool.not_eq_true'] at ho
  obtain ⟨⟨⟨⟨⟨h1, h2⟩, h3⟩, h4⟩, h5⟩, h6⟩ := ho
  have hp := body_pend (cx := cx) hJ h2 h3 h4 h5
  have hw : ∀ l, ctors J.en (.mk .block [] l) = weighL (isCtor J.en) l := by
    intro l; simp [ctors, isCtor]
  have g2 := (childLast_tr (env := ⟨fun _ => 0, false⟩) (k := .block) rfl [] ss
    (fun m _ => childExpr_tr m) cx ss [] fun _ h => h).own rfl hn
  have g3 := g2.count hc
  simp only [List.nil_append] at g3
  rw [hid, hv, hv0, hw, hw, h0] at g3
  have g4 : weighL (isCtor J.en) (childLast cx ss).2 = 0 := by simpa using g3
  have g5 := (Alike.node .block [] hp).ctors
  rw [hw, hw, g4] at g5
  have g6 := (pendL_count J ss (fun _ => hits []) (bodyRole J ss.length)).2 (by rw [← g5, h0])
  rw [g6] at hp
  have := alike_eq_of_zero (by rw [hw]; exact h0) (Alike.node .block [] hp) (by rw [hw]; exact g4)
  exact ⟨by injection this, g5.symm⟩

end AutoEnums
