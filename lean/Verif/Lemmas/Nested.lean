import Verif.Spec.Nested
import Verif.Lemmas.Within
import Verif.Props.C07

/-! # Lemmas: branches that are wrapped, wherever they are -/

namespace AutoEnums

open Spec

theorem kind_of_blur {en : Ident} {k k' : Kind} {as : List Attr} (hz : isCtor en (k, as) = 0)
    (h : blurK en k' = blurK en k) : k' = k := by
  have hb : blurK en k = k := by
    by_cases h : ∃ p, k = .ePath false p
    · obtain ⟨p, rfl⟩ := h
      rw [blurK_blurPath]
      rcases blurPath_cases en p with ⟨v, rfl, _⟩ | ⟨_, h⟩
      · simp [isCtor, variantPath] at hz
      · rw [h]
    · exact blurK_other en fun p hp => h ⟨p, hp⟩
  rw [hb] at h
  by_cases h' : ∃ p, k' = .ePath false p
  · obtain ⟨p, rfl⟩ := h'
    rw [blurK_blurPath] at h
    rcases blurPath_cases en p with ⟨v, _, hv⟩ | ⟨_, hv⟩
    · rw [hv] at h
      rw [← h] at hz
      simp [isCtor, variantPath] at hz
    · rw [hv] at h; exact h
  · rw [blurK_other en fun p hp => h' ⟨p, hp⟩] at h
    exact h

theorem treat_kind {J : Job} {w : Where} {ts : List Target} {r : Role} {e : Node} (h : settled e = true) :
    (treat J w ts r e).kind = e.kind := by
  obtain ⟨k, as, ks⟩ := e
  rw [treat.eq_def]
  unfold settled at h
  dsimp only
  generalize (if hidesCode k then ks
       else treatL J (w.enter k) (fun i => kidTargets ts (role J r k as ks) k as i)
        (fun i => kidRole (role J r k as ks) k as ks.length i) ks) = ks'
  unfold assemble
  dsimp only
  cases k <;> first
    | rfl
    | (dsimp only; split <;> rfl)
    | (simp only [Node.kind, Bool.and_false, Bool.false_eq_true] at h)

theorem kind_alike {J : Job} {w : Where} {ts : List Target} {r : Role} {e e' : Node}
    (hz : ∀ l ∈ labels e, isCtor J.en l = 0) (h : Alike J.en e' (treat J w ts r e))
    (hs : settled e = true) : e'.kind = e.kind := by
  have hk := treat_kind (J := J) (w := w) (ts := ts) (r := r) hs
  generalize treat J w ts r e = t at h hk
  obtain ⟨k, as, ks⟩ := t
  obtain ⟨k', ks', rfl, h1, _⟩ := h.inv
  obtain ⟨k2, as2, ks2⟩ := e
  cases hk
  exact kind_of_blur (hz (k, as2) (by simp)) h1

theorem zero_kid {en : Ident} {k : Kind} {as : List Attr} {ks : List Node} {c : Node}
    (h : ∀ l ∈ labels (.mk k as ks), isCtor en l = 0) (hc : c ∈ ks) : ∀ l ∈ labels c, isCtor en l = 0 :=
  fun l hl => h l (by rw [labels_mk]; exact List.mem_cons_of_mem _ (mem_labelsL.mpr ⟨c, hc, hl⟩))

theorem settled_alike {J : Job} {w : Where} {ts : List Target} {r : Role} {e e' : Node}
    (hz : ∀ l ∈ labels e, isCtor J.en l = 0) (h : Alike J.en e' (treat J w ts r e))
    (hs : settled e = true) : SameHead e e' := by
  refine ⟨kind_alike hz h hs, ?_⟩
  intro hk f args hks hsf
  obtain ⟨k, as, ks⟩ := e
  cases hk
  cases hks
  rw [treat.eq_def] at h
  simp only [hidesCode, Bool.false_eq_true, if_false, assemble, treatL] at h
  obtain ⟨l, rfl, h1⟩ := h.rigid (by simp)
  obtain ⟨f', args', rfl, h2, _⟩ := alikeL_inv h1
  exact ⟨f', args', rfl, kind_alike (zero_kid hz (by simp)) h2 hsf⟩

theorem alikeL_append {en : Ident} {a b c : List Node} (h : AlikeL en c (a ++ b)) :
    ∃ a' b', c = a' ++ b' ∧ AlikeL en a' a ∧ AlikeL en b' b := by
  induction a generalizing c with
  | nil => exact ⟨[], c, rfl, rfl, h⟩
  | cons x a ih =>
    obtain ⟨y, c, rfl, h1, h2⟩ := alikeL_inv h
    obtain ⟨a', b', rfl, h3, h4⟩ := ih h2
    exact ⟨y :: a', b', rfl, .cons h1 h3, h4⟩

theorem alikeL_one {en : Ident} {a : Node} {c : List Node} (h : AlikeL en c [a]) :
    ∃ a', c = [a'] ∧ Alike en a' a := by
  obtain ⟨y, c, rfl, h1, h2⟩ := alikeL_inv h
  rw [alikeL_nil h2]
  exact ⟨y, rfl, h1⟩

/-! ## `match` -/

theorem arm_of {J : Job} {w : Where} {ts : List Target} (hb : J.branches = true) {p : String}
    {as : List Attr} {gs : List Node} {b t : Node} (hl : gs.length ≤ 1)
    (hz : ∀ l ∈ labels (.mk (.arm p) as (gs ++ [b])), isCtor J.en l = 0)
    (h : Alike J.en t (treat J w ts .branch (.mk (.arm p) as (gs ++ [b])))) :
    ArmOf J.en J.marker (.mk (.arm p) as (gs ++ [b])) t := by
  rw [treat_arm hb hl] at h
  obtain ⟨ks, rfl, h1⟩ := h.rigid (by simp)
  obtain ⟨gs', l, rfl, h2, h3⟩ := alikeL_append h1
  obtain ⟨b', rfl, h4⟩ := alikeL_one h3
  have hlen : gs'.length = gs.length := by rw [h2.length]; simp
  have hzb := zero_kid hz (c := b) (by simp)
  cases hs : skipsArm J.marker (.mk (.arm p) as (gs ++ [b])) with
  | true =>
    simp only [hs, if_true] at h4
    exact .skipped hs hlen (settled_alike hzb h4)
  | false =>
    simp only [hs, Bool.false_eq_true, if_false] at h4
    obtain ⟨v, b', rfl, h5⟩ := ctor_inv h4
    exact .wrapped hs hlen (settled_alike hzb h5)

theorem arms_branched {J : Job} {w : Where} {ts : List Target} (hb : J.branches = true) :
    ∀ {arms arms' : List Node},
    (∀ a ∈ arms, ∃ p as gs b, a = .mk (.arm p) as (gs ++ [b]) ∧ gs.length ≤ 1) →
    (∀ a ∈ arms, ∀ l ∈ labels a, isCtor J.en l = 0) →
    AlikeL J.en arms' (arms.map (treat J w ts .branch)) → Aligned (ArmOf J.en J.marker) arms arms'
  | [], _, _, _, h => by rw [alikeL_nil h]; exact .nil
  | a :: arms, _, ha, hz, h => by
    rw [List.map_cons] at h
    obtain ⟨a', l, rfl, h1, h2⟩ := alikeL_inv h
    obtain ⟨p, as, gs, b, rfl, hl⟩ := ha a (by simp)
    exact .cons (arm_of hb hl (hz _ (by simp)) h1)
      (arms_branched hb (fun a h => ha a (by simp [h])) (fun a h => hz a (by simp [h])) h2)

/-! ## `if` -/

theorem kidsOk_ifKids {c : Node} {k1 : Kind} {asb : List Attr} {ss : List Node} {es : List Node}
    (h : kidsOk .eIf (c :: .mk k1 asb ss :: es) = true) :
    k1 = .block ∧ (es = [] ∨ ∃ k2 ase ks, es = [.mk k2 ase ks] ∧ ((∃ l, k2 = .eBlock l) ∨ k2 = .eIf)) := by
  have hk : k1 = .block := by
    cases k1 <;> first | rfl | (rcases es with _ | ⟨_, _ | ⟨_, _⟩⟩ <;> cases h)
  subst hk
  refine ⟨rfl, ?_⟩
  rcases es with _ | ⟨⟨k2, ase, ks⟩, _ | ⟨_, _⟩⟩
  · exact .inl rfl
  · refine .inr ⟨k2, ase, ks, rfl, ?_⟩
    cases k2 <;> first | cases h; done | simp
  · cases k2 <;> cases h

theorem branch_of {J : Job} {w : Where} {ts : List Target} (hb : J.branches = true) {k : Kind}
    (hk : k = .block ∨ ∃ l, k = .eBlock l) {as : List Attr} {ss : List Node} {t : Node}
    (hz : ∀ l ∈ labels (.mk k as ss), isCtor J.en l = 0)
    (h : Alike J.en t (treat J w ts .branch (.mk k as ss))) :
    ∃ ss', t = .mk k (if k = .block then as else strip as) ss' ∧ BranchOf J.en J.marker ss ss' := by
  have hr : role J .branch k as ss = if skipsBlock J.marker ss then .plain else .branch := by
    rcases hk with rfl | ⟨l, rfl⟩ <;> simp [role, hb]
  have hn : ∀ (q : Role) i, q ≠ .result → kidRole q k as ss.length i = .plain := by
    intro q i hq
    rcases hk with rfl | ⟨l, rfl⟩ <;> simp [kidRole, hq]
  rw [treat.eq_def] at h
  dsimp only at h
  rw [hr] at h
  have hne : (if skipsBlock J.marker ss then Role.plain else .branch) ≠ .result := by split <;> simp
  generalize hq : (if skipsBlock J.marker ss then Role.plain else .branch) = q at h hne
  have hx : (if hidesCode k = true then ss else
      treatL J (w.enter k) (fun i => kidTargets ts q k as i) (fun i => kidRole q k as ss.length i) ss) =
      treatL J (w.enter k) (fun i => kidTargets ts q k as i) (fun i => .plain) ss := by
    have : hidesCode k = false := by rcases hk with rfl | ⟨l, rfl⟩ <;> rfl
    rw [this]
    simp only [hn q _ hne, Bool.false_eq_true, if_false]
  rw [hx] at h
  generalize hss : treatL J (w.enter k) (fun i => kidTargets ts q k as i) (fun i => .plain) ss = ss1 at h
  have hlen : ss1.length = ss.length := by rw [← hss, treatL_length]
  have ha : assemble J (w.enter k) ts q k as ss ss1 =
      .mk k (if k = .block then as else strip as) (if q = .branch then wrapAll J ss1 else ss1) := by
    rcases hk with rfl | ⟨l, rfl⟩ <;> simp [assemble, carries, isExpression]
  rw [ha] at h
  obtain ⟨ss', rfl, h1⟩ := h.rigid (by rcases hk with rfl | ⟨l, rfl⟩ <;> simp)
  refine ⟨ss', rfl, ?_⟩
  cases hs : skipsBlock J.marker ss with
  | true =>
    simp only [hs, if_true] at hq
    subst hq
    simp only [if_false, reduceCtorEq] at h1
    refine .skipped hs (by rw [h1.length, hlen]) ?_
    rintro init as1 e rfl hse
    rw [← hss, treatL_last] at h1
    obtain ⟨init', l, rfl, _, h2⟩ := alikeL_append h1
    obtain ⟨s', rfl, h3⟩ := alikeL_one h2
    have : ∀ w ts, treat J w ts .plain (.mk (.sExpr false) as1 [e]) =
        .mk (.sExpr false) as1 [treat J w ts .plain e] := by
      intro w ts
      rw [treat.eq_def]
      simp [role, hb, isExpression, hidesCode, kidRole, assemble, carries, treatL, kidTargets, through,
        Where.enter]
    rw [this] at h3
    obtain ⟨l, rfl, h4⟩ := h3.rigid (by simp)
    obtain ⟨e', rfl, h5⟩ := alikeL_one h4
    exact ⟨init', as1, e', rfl, settled_alike (zero_kid (zero_kid hz (c := .mk (.sExpr false) as1 [e])
      (by simp)) (by simp)) h5 hse⟩
  | false =>
    simp only [hs, Bool.false_eq_true, if_false] at hq
    subst hq
    simp only [if_true] at h1
    obtain ⟨s', rfl, h3⟩ := alikeL_one h1
    obtain ⟨l, rfl, h4⟩ := h3.rigid (by simp)
    obtain ⟨c', rfl, h5⟩ := alikeL_one h4
    obtain ⟨v, e', rfl, h6⟩ := ctor_inv h5
    obtain ⟨l, rfl, h7⟩ := h6.rigid (by simp)
    exact .wrapped hs (by rw [h7.length, hlen])

theorem treat_if {J : Job} {w : Where} {ts : List Target} {r : Role} {as : List Attr} {c : Node}
    {ks : List Node} (hr : role J r .eIf as (c :: ks) ≠ .plain) :
    treat J w ts r (.mk .eIf as (c :: ks)) =
      .mk .eIf (strip as) (treat J w (through ts .eIf as) .plain c ::
        ks.map (treat J w (through ts .eIf as) .branch)) := by
  rw [treat.eq_def]
  dsimp only
  generalize role J r .eIf as (c :: ks) = q at hr
  simp only [hidesCode, assemble, carries, isExpression, treatL, Where.enter]
  simp only [kidRole, kidTargets, Bool.false_eq_true, if_false, if_true, ne_eq, hr,
    not_true_eq_false, and_false, Nat.add_eq_zero_iff, Nat.one_ne_zero, not_false_eq_true, and_self]
  rw [treatL_map (ts := through ts .eIf as) (r := .branch) (fun _ _ => rfl) (fun _ _ => rfl)]

theorem if_branched {J : Job} {w : Where} (hb : J.branches = true) : ∀ (n : Node) (ts : List Target)
    (r : Role) (t : Node), n.kind = .eIf → role J r n.kind n.rawAttrs n.kids ≠ .plain →
    grammatical n = true → (∀ l ∈ labels n, isCtor J.en l = 0) →
    Alike J.en t (treat J w ts r n) → Branched J.en J.marker n t := by
  refine Node.ind (P := fun n => ∀ (ts : List Target)
    (r : Role) (t : Node), n.kind = .eIf → role J r n.kind n.rawAttrs n.kids ≠ .plain →
    grammatical n = true → (∀ l ∈ labels n, isCtor J.en l = 0) →
    Alike J.en t (treat J w ts r n) → Branched J.en J.marker n t) ?_
  intro k as ks ih ts r t hk hr hg hz h
  cases hk
  obtain ⟨hg1, hg2⟩ := grammatical_mk hg rfl
  rcases ks with _ | ⟨c, ks⟩
  · cases hg1
  have hr' : role J r .eIf as (c :: ks) ≠ .plain := hr
  rw [treat_if hr'] at h
  obtain ⟨l, rfl, h1⟩ := h.rigid (by simp)
  obtain ⟨c', l, rfl, _, h2⟩ := alikeL_inv h1
  have hblock : ∀ (b : Node), b ∈ c :: ks → (b.kind = .block ∨ ∃ l, b.kind = .eBlock l) → ∀ (t : Node),
      Alike J.en t (treat J w (through ts .eIf as) .branch b) → ∃ ss', t = .mk b.kind
        (if b.kind = .block then b.rawAttrs else strip b.rawAttrs) ss' ∧
        BranchOf J.en J.marker b.kids ss' := by
    rintro ⟨k, as, ks⟩ hm hk t h
    exact branch_of hb hk (zero_kid hz hm) h
  rcases ks with _ | ⟨⟨k1, asb, ss⟩, es⟩
  · cases hg1
  obtain ⟨rfl, rfl | ⟨k2, ase, es, rfl, hk2⟩⟩ := kidsOk_ifKids hg1
  · obtain ⟨b', rfl, h3⟩ := alikeL_one h2
    obtain ⟨ss', rfl, h4⟩ := hblock _ (by simp) (.inl rfl) _ h3
    exact .noElse h4
  · rw [List.map_cons] at h2
    obtain ⟨b', l, rfl, h3, h5⟩ := alikeL_inv h2
    obtain ⟨e', rfl, h6⟩ := alikeL_one h5
    obtain ⟨ss', rfl, h4⟩ := hblock _ (by simp) (.inl rfl) _ h3
    rcases hk2 with ⟨lab, rfl⟩ | rfl
    · obtain ⟨es', rfl, h7⟩ := hblock _ (by simp) (.inr ⟨lab, rfl⟩) _ h6
      exact .else_ h4 h7
    · refine .elseIf h4 rfl (ih _ (by simp) _ _ _ rfl ?_ (grammaticalL_mem hg2 (by simp))
        (zero_kid hz (by simp)) h6)
      simp [role, hb, Node.kind]

/-! ## `loop` -/

/-- If the first leaves and is not excluded by `#[never]`, so does the second. -/
def Brk.Le (a b : Brk) : Prop :=
  ((a.leaves && !a.never) = true → b.leaves = true) ∧ (b.never = true → a.never = true) ∧ a.tokens = b.tokens ∧ a.value = b.value

theorem breaks_nested (J : Job) : ∀ (n : Node) (ts ts' : List Target) (r : Role) (nv tk : Bool),
    (∀ l, (hits ts l && !nv) = true → hits ts' l = true) →
    Aligned Brk.Le (breaks ts nv tk n) (nestedBreaks J ts' r tk n) := by
  refine Node.ind (P := fun n => ∀ (ts ts' : List Target) (r : Role) (nv tk : Bool),
    (∀ l, (hits ts l && !nv) = true → hits ts' l = true) →
    Aligned Brk.Le (breaks ts nv tk n) (nestedBreaks J ts' r tk n)) ?_
  intro k as ks ih ts ts' r nv tk h
  have ht : ∀ l, (hits ts l && !(nv || (isExpression k && marked "never" as))) = true →
      hits (through ts' k as) l = true := by
    intro l hl
    unfold through
    simp only [Bool.and_eq_true, Bool.not_eq_true', Bool.or_eq_false_iff] at hl
    rw [hl.2.2]
    exact h l (by simp [hl.1, hl.2.1])
  rw [breaks, nestedBreaks]
  generalize role J r k as ks = r0
  generalize hnv : (nv || (isExpression k && marked "never" as)) = nv' at ht
  have hcons : ∀ {a b : List Target}, (∀ l, (hits a l && !nv') = true → hits b l = true) →
      ∀ (x : Option String) (lp o : Bool) l, (hits (⟨x, lp, false⟩ :: a) l && !nv') = true →
        hits (⟨x, lp, o⟩ :: b) l = true := by
    intro a b hab x lp o l
    have := hab l
    cases l <;> simp only [hits] <;> split <;> simp_all
  have hk : ∀ i l, (hits (around ts k i) l && !nv') = true → hits (kidTargets ts' r0 k as i) l = true := by
    intro i l
    unfold around
    split
    · cases l <;> simp [hits]
    · cases l <;> simp [hits]
    · exact hcons ht _ _ _ l
    · exact hcons ht _ _ _ l
    · simp only [kidTargets]
      split
      · exact ht l
      · exact hcons ht _ _ _ l
    · exact hcons ht _ _ _ l
    · rename_i h1 h2 h3 h4 h5 h6
      unfold kidTargets
      split
      · exact absurd rfl (h1 _)
      · exact absurd rfl h2
      · exact absurd rfl (h3 _)
      · exact absurd rfl (h4 _)
      · exact absurd rfl (h5 _ _)
      · exact absurd rfl (h6 _)
      · exact ht l
  have hL : ∀ (l : List Node) (f f' : Nat → List Target) (rs : Nat → Role) (nv tk : Bool), (∀ n ∈ l, n ∈ ks) →
      (∀ i l, (hits (f i) l && !nv) = true → hits (f' i) l = true) →
      Aligned Brk.Le (breaksL f nv tk l) (nestedBreaksL J f' rs tk l) := by
    intro l
    induction l with
    | nil => intros; rw [breaksL, nestedBreaksL]; exact .nil
    | cons n ns ih2 =>
      intro f f' rs nv tk hm hf
      rw [breaksL, nestedBreaksL]
      exact (ih n (hm n (by simp)) _ _ _ _ _ (hf 0)).append
        (ih2 _ _ _ _ _ (fun n h => hm n (by simp [h])) fun i => hf _)
  refine Aligned.append ?_ ?_
  · cases hb : breakOf k with
    | none => exact .nil
    | some l =>
      have hx : isExpression k = true := by
        unfold breakOf at hb
        split at hb
        · rfl
        · cases hb
      rw [hx, Bool.true_and] at hnv
      refine .cons ⟨?_, fun h => by dsimp only at h; simp [h], rfl, rfl⟩ .nil
      rw [hnv]
      exact ht l
  · split
    · exact .nil
    · exact hL ks _ _ _ _ _ (fun _ h => h) hk

theorem loop_branched {J : Job} {w : Where} {ts : List Target} {l : Option String} {as : List Attr}
    {body t : Node} (hb : J.branches = true) (hd : diverges J.marker (.mk (.eLoop l) as [body]) = false)
    (hz : ∀ l ∈ labels body, (∀ a ∈ l.2, named "auto_enum" a = false) ∧ isCtor J.en l = 0)
    (h : Alike J.en t (treat J w ts .result (.mk (.eLoop l) as [body]))) :
    Branched J.en J.marker (.mk (.eLoop l) as [body]) t := by
  rw [treat_loop hb hd] at h
  obtain ⟨ks, rfl, h1⟩ := h.rigid (by simp)
  obtain ⟨body', rfl, h2⟩ := alikeL_one h1
  refine .breaks ?_
  have hfate := nestedBreaks_treat (J := J) body w (⟨l, true, true⟩ :: through ts (.eLoop l) as)
    (⟨l, true, true⟩ :: through ts (.eLoop l) as) .plain (fun lab => rfl) (flat_of fun l hl => (hz l hl).1)
  have hout := fate_out hfate (l' := breaksIn l body') (by
    rw [← brkVals_blur, ← h2, brkVals_blur, breaksIn, ← breaks_vals body' [⟨l, true, true⟩] false false,
      List.map_map]
    rfl) (by
    intro a ha v hv
    have h1 : some (.call (variantPath J.en v)) ∈ brkVals body := by
      rw [← nestedBreaks_vals J body (⟨l, true, true⟩ :: through ts (.eLoop l) as) .plain false, ← hv]
      exact List.mem_map_of_mem ha
    obtain ⟨as, h2⟩ := brkVals_call body h1
    have := (hz _ h2).2
    simp [isCtor, variantPath] at this)
  have hmono := breaks_nested J body [⟨l, true, true⟩] (⟨l, true, true⟩ :: through ts (.eLoop l) as)
    .plain false false (by
      intro lab
      cases lab <;> simp only [hits] <;> split <;> simp)
  have hcomp : ∀ {a b c : List Brk}, Aligned Brk.Le a b → Aligned (Brk.Fate J.en J.marker) b c →
      Aligned (fun x y => x.ours J.marker = true → Constructs J.en y.value) a c := by
    intro a b c h1
    induction h1 generalizing c with
    | nil => intro h; cases h; exact .nil
    | cons h _ ih =>
      intro h2
      cases h2 with
      | cons h3 h4 =>
        refine .cons ?_ (ih h4)
        intro ho
        obtain ⟨g1, g2, g3, g4⟩ := h
        unfold Brk.Fate Brk.ours at h3
        unfold Brk.ours at ho
        rw [← g3, ← g4] at h3
        simp only [Bool.and_eq_true] at ho g1
        have g5 : ∀ {x y : Bool}, (y = true → x = true) → (!x) = true → y = false := by decide
        simp only [g1 ho.1.1, g5 g2 ho.1.1.2, ho.1.2, ho.2, Bool.and_self, if_true, Bool.not_false] at h3
        exact h3
  exact hcomp hmono hout

/-! ## All together -/

theorem grammatical_within {x n : Node} (h : Within x n) : grammatical n = true → grammatical x = true := by
  induction h with
  | here => exact id
  | kid hk hc _ ih => exact fun hg => ih (grammaticalL_mem (grammatical_mk hg hk).2 hc)

theorem labels_within {x n : Node} (h : Within x n) : ∀ l ∈ labels x, l ∈ labels n := by
  induction h with
  | here => exact fun _ h => h
  | kid _ hc _ ih =>
    intro l hl
    rw [labels_mk]
    exact List.mem_cons_of_mem _ (mem_labelsL.mpr ⟨_, hc, ih l hl⟩)

theorem branched {J : Job} {w : Where} {ts : List Target} {r t : Node} (hb : J.branches = true)
    (hd : diverges J.marker r = false) (hr : isBranching r.kind = true) (hg : grammatical r = true)
    (hz : ∀ l ∈ labels r, (∀ a ∈ l.2, named "auto_enum" a = false) ∧ isCtor J.en l = 0)
    (h : Alike J.en t (treat J w ts .result r)) : Branched J.en J.marker r t := by
  obtain ⟨k, as, ks⟩ := r
  cases k <;> try (cases hr; done)
  case eIf =>
    refine if_branched hb _ _ .result _ rfl ?_ hg (fun l hl => (hz l hl).2) h
    rw [show role J .result (Node.mk Kind.eIf as ks).kind (Node.mk Kind.eIf as ks).rawAttrs
      (Node.mk Kind.eIf as ks).kids = role J .result .eIf as ks from rfl, role_result hb hd]
    simp
  case eMatch =>
    obtain ⟨hg1, hg2⟩ := grammatical_mk hg rfl
    rcases ks with _ | ⟨s, arms⟩
    · cases hg1
    · rw [treat_match hb hd] at h
      obtain ⟨l, rfl, h1⟩ := h.rigid (by simp)
      obtain ⟨s', arms', rfl, _, h2⟩ := alikeL_inv h1
      refine .arms (arms_branched hb ?_ (fun a ha => zero_kid (fun l hl => (hz l hl).2) (by simp [ha])) h2)
      intro a ha
      simp only [kidsOk, Bool.and_eq_true, List.all_eq_true] at hg1
      have := hg1.2 a ha
      have hga := grammaticalL_mem hg2 (n := a) (by simp [ha])
      obtain ⟨k, as, ks⟩ := a
      cases k <;> simp [Node.kind] at this
      obtain ⟨hg3, _⟩ := grammatical_mk hga rfl
      simp only [kidsOk, Bool.and_eq_true] at hg3
      rcases ks with _ | ⟨e, _ | ⟨e2, _ | ⟨_, _⟩⟩⟩
      · simp at hg3
      · exact ⟨_, _, [], e, rfl, by simp⟩
      · exact ⟨_, _, [e], e2, rfl, by simp⟩
      · simp at hg3
  case eLoop l =>
    obtain ⟨hg1, hg2⟩ := grammatical_mk hg rfl
    have : ∃ b, ks = [b] := by
      rcases ks with _ | ⟨b, _ | ⟨_, _⟩⟩
      · cases hg1
      · exact ⟨b, rfl⟩
      · obtain ⟨k, _, _⟩ := b
        cases k <;> cases hg1
    obtain ⟨b, rfl⟩ := this
    exact loop_branched hb hd (fun l hl => hz l (by simp [hl])) h

theorem lastOf_within {ks : List Node} (hx : isBranching (lastOf ks).kind = true)
    (ih : ∀ m, sizeOf m < sizeOf ks → isBranching (resultOf m).kind = true → Within (resultOf m) m) :
    ∃ c ∈ ks, Within (lastOf ks) c := by
  obtain ⟨ms, as, e, rfl, he⟩ := lastForm hx
  rw [he] at hx ⊢
  have : ∀ (l : List Node) (n : Node), sizeOf n < sizeOf (l ++ [n]) := by
    intro l n
    induction l with
    | nil => simp; omega
    | cons _ _ ih => simp at ih ⊢; omega
  have := this ms (.mk (.sExpr false) as [e])
  refine ⟨.mk (.sExpr false) as [e], by simp, .kid rfl (by simp) (ih e ?_ hx)⟩
  simp at this ⊢
  omega

theorem resultOf_within : ∀ n, isBranching (resultOf n).kind = true → Within (resultOf n) n := by
  apply Node.strongInd
  rintro ⟨k, as, ks⟩ ih hx
  have hself : resultOf (.mk k as ks) = .mk k as ks → Within (resultOf (.mk k as ks)) (.mk k as ks) := by
    intro h; rw [h]; exact .here _
  cases k <;> try (refine hself ?_; rw [resultOf.eq_def]; done)
  case eBlock l =>
    simp only [resultOf] at hx ⊢
    obtain ⟨c, h1, h2⟩ := lastOf_within hx fun m hm => ih m (by simp; omega)
    exact .kid rfl h1 h2
  case eUnsafe =>
    simp only [resultOf] at hx ⊢
    obtain ⟨c, h1, h2⟩ := lastOf_within hx fun m hm => ih m (by simp; omega)
    exact .kid rfl h1 h2
  case eParen =>
    rcases ks with _ | ⟨e, _ | ⟨e2, es⟩⟩
    · exact hself (by rw [resultOf.eq_def])
    · simp only [resultOf] at hx ⊢
      exact .kid rfl (by simp) (ih e (by simp; omega) hx)
    · exact hself (by rw [resultOf.eq_def])
  case eMethodCall m =>
    rcases ks with _ | ⟨e, es⟩
    · exact hself (by rw [resultOf.eq_def])
    · simp only [resultOf] at hx ⊢
      exact .kid rfl (c := e) (by simp) (ih e (by simp; omega) hx)

theorem treat_nested {J : Job} {w : Where} {ts : List Target} {k : Kind} {as : List Attr} {ks : List Node}
    (hb : J.branches = true) (h1 : isExpression k = true) (h2 : marked "nested" as = true) :
    treat J w ts .plain (.mk k as ks) = treat J w ts .result (.mk k as ks) := by
  have : role J .plain k as ks = role J .result k as ks := by
    unfold role
    simp only [hb, Bool.true_eq_false, if_false, h1, h2, Bool.true_and]
    cases diverges J.marker (.mk k as ks) <;> simp
  rw [treat.eq_def, treat.eq_def J w ts .result]
  dsimp only
  rw [this]

/-- Where `#[nested]` is used. -/
theorem Treats.nested {b : Bool} {traits : List Path} {en : Ident} {m : String} {n out e : Node}
    (h : Treats b traits en m n out) (hs : Simple en m n) (hb : (jobOf en m n).branches = true)
    (he : NestedAt e (startOf n)) :
    ∃ w ts e', Within e' out ∧ Alike en e' (treat (jobOf en m n) w ts .result e) := by
  have hne : ∀ {x : Node}, (x.rawAttrs ≠ [] ∨ x.kind ≠ .eBlock none) → x = startOf n →
      ∀ name ret as ks, n ≠ .mk (.iFn name ret) as ks := by
    rintro x hx rfl name ret as ks rfl
    have ho := hs.ordinary
    unfold ordinary at ho
    split at ho
    · rename_i heq; cases heq
    · rename_i heq; cases heq
    · rename_i heq; cases heq; simp [startOf, targetOf, bodyOf, Node.rawAttrs, Node.kind] at hx
    · cases ho
  cases he with
  | @expr k as ks _ hw hk hn =>
    obtain ⟨w, ts, r, x', h1, h2, h3⟩ := h.within hs ⟨hw, hne (.inl (by rintro h; rw [show (Node.mk k as ks).rawAttrs = as from rfl] at h; rw [h] at hn; cases hn))⟩
    rw [once, hk, hn] at h1
    simp only [Bool.not_true, Bool.or_false, Bool.and_eq_true, beq_iff_eq] at h1
    rw [h1.1, treat_nested hb hk hn] at h3
    exact ⟨w, ts, x', h2, h3⟩
  | @arm p as gs _ _ hw hn =>
    obtain ⟨w, ts, r, x', h1, h2, h3⟩ := h.within hs ⟨hw, hne (.inr (by simp [Node.kind]))⟩
    have : Within (treat (jobOf en m n) w ts .result e) (treat (jobOf en m n) w ts r
        (.mk (.arm p) as (gs ++ [e]))) := by
      rw [treat.eq_def _ w ts r]
      refine within_assemble rfl ?_ (.here _)
      simp only [hidesCode, Bool.false_eq_true, if_false, treatL_last]
      simp [kidRole, hn, kidTargets, through, isExpression, Where.enter]
    obtain ⟨e', h4, h5⟩ := this.alike h3
    exact ⟨w, ts, e', h4.trans h2, h5⟩
  | @init p as _ els _ hw hn =>
    obtain ⟨w, ts, r, x', h1, h2, h3⟩ := h.within hs ⟨hw, hne (.inr (by simp [Node.kind]))⟩
    have : Within (treat (jobOf en m n) w ts .result e) (treat (jobOf en m n) w ts r
        (.mk (.sLocal p) as (e :: els))) := by
      rw [treat.eq_def _ w ts r]
      refine within_assemble rfl ?_ (.here _)
      simp only [hidesCode, Bool.false_eq_true, if_false, treatL]
      simp [kidRole, hn, kidTargets, through, isExpression, Where.enter]
    obtain ⟨e', h4, h5⟩ := this.alike h3
    exact ⟨w, ts, e', h4.trans h2, h5⟩

theorem NestedAt.within {e n : Node} (h : NestedAt e n) : Within e n := by
  cases h with
  | expr h _ _ => exact h
  | arm h _ => exact (Within.one rfl (by simp)).trans h
  | init h _ => exact (Within.one rfl (by simp)).trans h

theorem ordinary_grammatical {en : Ident} {m : String} {n : Node} (ho : ordinary en m n = true) :
    grammatical (startOf n) = true := by
  have hexpr : ∀ semi e, ordinaryExpr en m semi e = true → grammatical (bodyOf e) = true := by
    intro semi e he
    unfold ordinaryExpr at he
    split at he
    · simp only [ordinaryIn, Bool.and_eq_true] at he
      exact he.2.1.1.2
    · simp only [ordinaryIn, Bool.and_eq_true] at he
      unfold bodyOf
      split
      · exact grammaticalL_mem (grammatical_mk he.1.1.2 rfl).2 (by simp)
      · exact he.1.1.2
  unfold ordinary at ho
  split at ho
  · exact hexpr _ _ ho
  · exact hexpr _ _ ho
  · simp only [ordinaryBody, Bool.and_eq_true] at ho
    simp only [startOf, targetOf, bodyOf]
    rw [grammatical, Bool.or_eq_true, Bool.and_eq_true]
    exact .inr ⟨ho.2.1.1.1.1.2, ho.2.1.1.2⟩
  · rename_i h1 h2 h3
    simp only [Bool.and_eq_true] at ho
    have hn : targetOf n = n := by
      have he := ho.1
      unfold targetOf
      split
      · cases he
      · cases he
      · cases he
      · rfl
    unfold startOf
    rw [hn]
    exact hexpr _ _ ho.2

theorem Simple.start {en : Ident} {m : String} {n : Node} (hs : Simple en m n) :
    ∀ l ∈ labels (startOf n), (∀ a ∈ l.2, named "auto_enum" a = false) ∧ isCtor en l = 0 := by
  intro l hl
  rcases labels_startOf n l hl with h | rfl
  · exact ⟨fun a ha => hs.inner a (mem_allAttrs.mpr ⟨l, h, ha⟩), isCtor_zero hs.fresh l h⟩
  · exact ⟨by simp, rfl⟩

end AutoEnums
