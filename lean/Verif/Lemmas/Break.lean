import Verif.Spec.Break
import Verif.Lemmas.Forms

/-! # Lemmas: the `break`s of a loop in result position -/

namespace AutoEnums

open Spec

/-! ## Values -/

mutual
/-- The values of the `break`s of a tree. -/
def brkVals : Node → List (Option Val)
  | .mk k _ ks =>
    ((breakOf k).map fun _ => ks.head?.map valOf).toList ++
    if hidesCode k && !isMacroCall k then [] else brkValsL ks
def brkValsL : List Node → List (Option Val)
  | [] => []
  | n :: ns => brkVals n ++ brkValsL ns
end

theorem breaks_vals : ∀ (n : Node) (ts : List Target) (nv tk : Bool),
    (breaks ts nv tk n).map (·.value) = brkVals n := by
  refine Node.ind (P := fun n => ∀ (ts : List Target) (nv tk : Bool),
    (breaks ts nv tk n).map (·.value) = brkVals n) ?_
  intro k as ks ih ts nv tk
  rw [breaks, brkVals]
  rw [List.map_append]
  have h0 : ∀ (a b c d : List (Option Val)), a = c → b = d → a ++ b = c ++ d := by
    intro a b c d h1 h2; rw [h1, h2]
  refine h0 _ _ _ _ ?_ ?_
  · cases breakOf k <;> rfl
  · split
    · rfl
    · have : ∀ (l : List Node) (ts : Nat → List Target) (nv tk : Bool), (∀ n ∈ l, n ∈ ks) →
          (breaksL ts nv tk l).map (·.value) = brkValsL l := by
        intro l
        induction l with
        | nil => intros; rfl
        | cons a l ihl =>
          intro ts nv tk hm
          rw [breaksL, brkValsL, List.map_append, ih a (hm a (by simp)),
            ihl _ _ _ fun n h => hm n (by simp [h])]
      exact this _ _ _ _ fun _ h => h

theorem Aligned.map_right {α β γ : Type} {R : α → γ → Prop} {f : β → γ} :
    ∀ {l : List α} {l' : List β}, Aligned R l (l'.map f) → Aligned (fun a b => R a (f b)) l l'
  | _, [], h => by cases h; exact .nil
  | _, b :: l', h => by
    cases h with
    | cons h1 h2 => exact .cons h1 (Aligned.map_right h2)

theorem Aligned.append {α β : Type} {R : α → β → Prop} {a b : List α} {a' b' : List β}
    (h1 : Aligned R a a') (h2 : Aligned R b b') : Aligned R (a ++ b) (a' ++ b') := by
  induction h1 with
  | nil => exact h2
  | cons h _ ih => exact .cons h ih

/-- No `#[nested]`, no inner attribute, no constructor of `en`. -/
def calmHere (en : Ident) (l : Label) : Bool :=
  !(carries l.1 && marked "nested" l.2) && l.2.all (fun a => !named "auto_enum" a) && isCtor en l == 0

def calm (en : Ident) (n : Node) : Bool := (visible n).all (calmHere en)
def calmL (en : Ident) (ns : List Node) : Bool := (visibleL ns).all (calmHere en)

theorem calm_mk (en : Ident) (k : Kind) (as : List Attr) (ks : List Node) :
    calm en (.mk k as ks) = (calmHere en (k, as) && (hidesCode k || calmL en ks)) := by
  simp only [calm, visible, calmL, List.all_cons]
  cases hidesCode k <;> simp

theorem calmL_cons (en : Ident) (n : Node) (ns : List Node) :
    calmL en (n :: ns) = (calm en n && calmL en ns) := by
  simp [calmL, calm, visibleL]

theorem calm_name {en : Ident} {k : Kind} {as : List Attr} {ks : List Node}
    (h : calm en (.mk k as ks) = true) : as.any (named "auto_enum") = false := by
  rw [calm_mk, Bool.and_eq_true] at h
  have := h.1
  simp only [calmHere, Bool.and_eq_true, List.all_eq_true, Bool.not_eq_true'] at this
  rw [List.any_eq_false]
  intro a ha
  simp [this.1.2 a ha]

theorem dropFirst_mem {p : Attr → Bool} {as : List Attr} {a : Attr} (h : a ∈ dropFirst p as) : a ∈ as := by
  induction as with
  | nil => exact h
  | cons b as ih =>
    simp only [dropFirst] at h
    split at h
    · simp [h]
    · rcases List.mem_cons.mp h with rfl | h
      · simp
      · simp [ih h]

theorem strip_mem {as : List Attr} {a : Attr} (h : a ∈ strip as) : a ∈ as :=
  dropFirst_mem (dropFirst_mem h)

theorem strip_any {p : Attr → Bool} {as : List Attr} (h : as.any p = false) : (strip as).any p = false := by
  rw [List.any_eq_false] at h ⊢
  exact fun a ha => h a (strip_mem ha)

theorem role_calm {J : Job} {k : Kind} {as : List Attr} {ks : List Node} {en : Ident}
    (h : calmHere en (k, as) = true) : role J .plain k as ks = .plain := by
  simp only [calmHere, Bool.and_eq_true, Bool.not_eq_true'] at h
  have h1 := h.1.1
  unfold role
  split
  · rfl
  · simp only
    split
    · rename_i h2
      simp only [Bool.and_eq_true] at h2
      exfalso
      have : carries k = true := by
        unfold carries
        split
        · rfl
        · rfl
        · exact h2.1.1
      simp [this, h2.1.2] at h1
    · rfl

theorem kidRole_calm {k : Kind} {as : List Attr} {n i : Nat} {en : Ident}
    (h : calmHere en (k, as) = true) : kidRole .plain k as n i = .plain := by
  simp only [calmHere, Bool.and_eq_true, Bool.not_eq_true'] at h
  have h1 := h.1.1
  unfold kidRole
  split <;> simp_all [carries]

/-- What becomes of the shape of a value. -/
def ValFate (J : Job) (a b : Val) : Prop :=
  b = a ∨ (a = .mac (macroPath J.marker) ∧ b = .call (variantPath J.en ""))

theorem calleeOf_path (p : Path) (as : List Attr) (ks ns : List Node)
    (h : as.any (named "auto_enum") = false) :
    calleeOf (.mk (.ePath false p) as ks :: ns) = .call p := by
  simp [calleeOf, h]

theorem calleeOf_other {k : Kind} {as : List Attr} {ks ns : List Node}
    (h : as.any (named "auto_enum") = false) (hk : ∀ p, k ≠ .ePath false p) :
    calleeOf (.mk k as ks :: ns) = .other := by
  unfold calleeOf
  split
  · rename_i heq; cases heq; exact absurd rfl (hk _)
  · rename_i heq; cases heq; simp [hasName, h]
  · rename_i heq; cases heq

/-- The root of the treatment of a node. -/
theorem treat_root (J : Job) (w : Where) (ts : List Target) {en : Ident} {k : Kind} {as : List Attr}
    {ks : List Node} (h : calm en (.mk k as ks) = true) :
    ∃ k' as' ks', treat J w ts .plain (.mk k as ks) = .mk k' as' ks' ∧
      as'.any (named "auto_enum") = false ∧
      (k' = k ∨ (k = .eTry ∧ k' = .eMatch) ∨
        (∃ t e, k = .eMacro (macroPath J.marker) t ∧ ks = [e] ∧ k' = .eCall ∧
          ks' = [.mk (.ePath false (variantPath J.en "")) [] [], e])) := by
  have hn := calm_name h
  have hn' : (if carries k then strip as else as).any (named "auto_enum") = false := by
    split
    · exact strip_any hn
    · exact hn
  rw [treat.eq_def]
  unfold assemble
  dsimp only
  generalize (if hidesCode k then ks else _) = ks1
  split
  · split <;> exact ⟨_, _, _, rfl, hn', .inl rfl⟩
  · split <;> exact ⟨_, _, _, rfl, hn', .inl rfl⟩
  · split
    · split
      · exact ⟨_, _, _, rfl, hn', .inr (.inl ⟨rfl, rfl⟩)⟩
      · exact ⟨_, _, _, rfl, hn', .inl rfl⟩
    · exact ⟨_, _, _, rfl, hn', .inl rfl⟩
  · split
    · split
      · rename_i hp
        subst hp
        exact ⟨_, _, _, rfl, hn', .inr (.inr ⟨_, _, rfl, rfl, rfl, rfl⟩)⟩
      · exact ⟨_, _, _, rfl, hn', .inl rfl⟩
    · exact ⟨_, _, _, rfl, hn', .inl rfl⟩
  · exact ⟨_, _, _, rfl, hn', .inl rfl⟩
  · exact ⟨_, _, _, rfl, hn', .inl rfl⟩
  · exact ⟨_, _, _, rfl, hn', .inl rfl⟩
  · exact ⟨_, _, _, rfl, hn', .inl rfl⟩

theorem treat_call (J : Job) (w : Where) (ts : List Target) {en : Ident} {as : List Attr}
    {ks : List Node} (h : calm en (.mk .eCall as ks) = true) :
    treat J w ts .plain (.mk .eCall as ks) =
      .mk .eCall (strip as) (ks.map (treat J w (through ts .eCall as) .plain)) := by
  have hc : calmHere en (.eCall, as) = true := by
    rw [calm_mk, Bool.and_eq_true] at h; exact h.1
  rw [treat.eq_def]
  simp only [role_calm hc, hidesCode, assemble, carries, isExpression, Where.enter]
  simp only [if_true, Bool.false_eq_true, if_false]
  rw [treatL_map (tss := fun i => kidTargets ts .plain .eCall as i)
    (rs := fun i => kidRole .plain .eCall as ks.length i)
    (ts := through ts .eCall as) (r := .plain) (fun _ _ => rfl) (fun _ _ => kidRole_calm hc)]

theorem valOf_treat (J : Job) (w : Where) (ts : List Target) {en : Ident} (n : Node)
    (h : calm en n = true) : ValFate J (valOf n) (valOf (treat J w ts .plain n)) := by
  obtain ⟨k, as, ks⟩ := n
  have hn := calm_name h
  obtain ⟨k', as', ks', he, hn', hk⟩ := treat_root J w ts h
  by_cases hcall : k = .eCall
  · subst hcall
    rw [treat_call J w ts h]
    have hst := strip_any hn
    cases ks with
    | nil => simp [valOf, hn, hst, ValFate]
    | cons c cs =>
      rw [calm_mk, Bool.and_eq_true, calmL_cons] at h
      have hc : calm en c = true := by
        have := h.2
        simp only [hidesCode, Bool.false_or, Bool.and_eq_true] at this
        exact this.1
      obtain ⟨kc, asc, ksc⟩ := c
      obtain ⟨kc', asc', ksc', hce, hcn', hck⟩ := treat_root J w (through ts .eCall as) hc
      have hcn := calm_name hc
      simp only [valOf, hn, hst, List.map_cons, hce, Bool.false_eq_true, if_false]
      left
      by_cases hp : ∃ p, kc = .ePath false p
      · obtain ⟨p, rfl⟩ := hp
        have : kc' = .ePath false p := by
          rcases hck with h | ⟨h, _⟩ | ⟨_, _, h, _⟩
          · exact h
          · cases h
          · cases h
        subst this
        rw [calleeOf_path _ _ _ _ hcn, calleeOf_path _ _ _ _ hcn']
      · rw [calleeOf_other hcn fun p h => hp ⟨p, h⟩, calleeOf_other hcn' fun p h => ?_]
        rcases hck with h2 | ⟨_, h2⟩ | ⟨_, _, _, _, h2, _⟩
        · exact hp ⟨p, h2.symm.trans h⟩
        · rw [h2] at h; cases h
        · rw [h2] at h; cases h
  · rw [he]
    rcases hk with rfl | ⟨rfl, rfl⟩ | ⟨t, e, rfl, rfl, rfl, rfl⟩
    · left
      unfold valOf
      dsimp only
      rw [hn, hn']
      split <;> first | rfl | exact absurd rfl hcall
    · left
      simp [valOf, hn, hn']
    · right
      simp [valOf, hn', calleeOf]

/-! ## The `break`s -/

theorem breaks_tokens : ∀ (n : Node) (ts : List Target) (nv : Bool),
    ∀ a ∈ breaks ts nv true n, a.tokens = true := by
  refine Node.ind (P := fun n => ∀ (ts : List Target) (nv : Bool),
    ∀ a ∈ breaks ts nv true n, a.tokens = true) ?_
  intro k as ks ih ts nv a ha
  rw [breaks, List.mem_append] at ha
  rcases ha with ha | ha
  · cases hb : breakOf k <;> rw [hb] at ha
    · cases ha
    · simp only [Option.map_some, Option.toList_some, List.mem_singleton] at ha; rw [ha]
  · split at ha
    · cases ha
    · have : ∀ (l : List Node) (ts : Nat → List Target) (nv : Bool), (∀ n ∈ l, n ∈ ks) →
          ∀ a ∈ breaksL ts nv true l, a.tokens = true := by
        intro l
        induction l with
        | nil => intro _ _ _ _ h; cases h
        | cons b l ihl =>
          intro ts nv hm a ha
          rw [breaksL, List.mem_append] at ha
          rcases ha with ha | ha
          · exact ih b (hm b (by simp)) _ _ _ ha
          · exact ihl _ _ (fun n h => hm n (by simp [h])) _ ha
      rw [Bool.true_or] at ha
      exact this _ _ _ (fun _ h => h) a ha

/-- `Brk.Fate` up to the names of the variants. -/
def Fate0 (J : Job) (a : Brk) (b : Option Val) : Prop :=
  if a.ours J.marker then b = some (.call (variantPath J.en ""))
  else b = a.value ∨ (a.value = some (.mac (macroPath J.marker)) ∧
    b = some (.call (variantPath J.en "")))

theorem fate_tokens {J : Job} : ∀ {l : List Brk}, (∀ a ∈ l, a.tokens = true) →
    Aligned (Fate0 J) l (l.map (·.value))
  | [], _ => .nil
  | a :: l, h => .cons (by simp [Fate0, Brk.ours, h a (by simp)]) (fate_tokens fun b hb => h b (by simp [hb]))

theorem tokens_fate {J : Job} (ts : List Target) (nv : Bool) (n : Node) :
    Aligned (Fate0 J) (breaks ts nv true n) (brkVals n) := by
  rw [← breaks_vals n ts nv true]
  exact fate_tokens (breaks_tokens n ts nv)

theorem tokensL_fate {J : Job} (nv : Bool) : ∀ (ns : List Node) (ts : Nat → List Target),
    Aligned (Fate0 J) (breaksL ts nv true ns) (brkValsL ns)
  | [], _ => by rw [breaksL, brkValsL]; exact .nil
  | n :: ns, ts => by
    rw [breaksL, brkValsL]
    exact (tokens_fate _ _ n).append (tokensL_fate nv ns _)

theorem hits_off (ts : List Target) (l : Option String) :
    hits (ts.map ({ · with ours := false })) l = false := by
  refine hits_noneOurs ?_ l
  intro t ht
  simp only [List.mem_map] at ht
  obtain ⟨_, _, rfl⟩ := ht
  rfl

theorem hits_never {ts1 ts2 : List Target} {nv : Bool}
    (h : ∀ l, hits ts2 l = (hits ts1 l && !nv)) (k : Kind) (as : List Attr) (l : Option String) :
    hits (through ts2 k as) l = (hits ts1 l && !(nv || (isExpression k && marked "never" as))) := by
  unfold through
  cases hm : isExpression k && marked "never" as
  · simp only [Bool.false_eq_true, if_false, Bool.or_false, h]
  · simp only [if_true, Bool.or_true, hits_off, Bool.not_true, Bool.and_false]

theorem hits_inner {ts1 ts2 : List Target} {nv : Bool} (h : ∀ l, hits ts2 l = (hits ts1 l && !nv))
    (t : Target) (ht : t.ours = false) (l : Option String) :
    hits (t :: ts2) l = (hits (t :: ts1) l && !nv) := by
  cases l <;> simp only [hits] <;> split <;> simp [ht, h]

theorem hits_kid {ts1 ts2 : List Target} {nv : Bool} (h : ∀ l, hits ts2 l = (hits ts1 l && !nv))
    (k : Kind) (as : List Attr) (i : Nat) (l : Option String) :
    hits (kidTargets ts2 .plain k as i) l =
      (hits (around ts1 k i) l && !(nv || (isExpression k && marked "never" as))) := by
  have ht := hits_never h k as
  unfold kidTargets around
  split
  · cases l <;> rfl
  · cases l <;> rfl
  · exact hits_inner ht _ (by simp) l
  · exact hits_inner ht _ rfl l
  · split
    · exact ht l
    · exact hits_inner ht _ rfl l
  · exact hits_inner ht _ rfl l
  · rename_i h1 h2 h3 h4 h5 h6
    split
    · exact absurd rfl (h1 _)
    · exact absurd rfl h2
    · exact absurd rfl (h3 _)
    · exact absurd rfl (h4 _)
    · exact absurd rfl (h5 _ _)
    · exact absurd rfl (h6 _)
    · exact ht l

theorem isCallOf_val (m : String) (ks : List Node) :
    isCallOf m ks = (ks.head?.map valOf == some (.mac (macroPath m))) := by
  cases ks with
  | nil => rfl
  | cons n ns =>
    obtain ⟨k, as, ms⟩ := n
    by_cases hk : ∃ p t, k = .eMacro p t
    · obtain ⟨p, t, rfl⟩ := hk
      simp [isCallOf, valOf, macroPath, Bool.beq_eq_decide_eq]
    · have h1 : isCallOf m (.mk k as ms :: ns) = false := by
        unfold isCallOf
        split
        · rename_i heq; cases heq; exact absurd ⟨_, _, rfl⟩ hk
        · rfl
      rw [h1, List.head?_cons, Option.map_some]
      symm
      rw [beq_eq_false_iff_ne]
      intro hv
      injection hv with hv
      unfold valOf at hv
      dsimp only at hv
      split at hv
      · exact hk ⟨_, _, rfl⟩
      · split at hv
        · cases hv
        · unfold calleeOf at hv
          split at hv
          · split at hv <;> cases hv
          · split at hv <;> cases hv
          · cases hv
      · split at hv <;> cases hv

theorem brkVals_ctor (J : Job) (as : List Attr) (e : Node) : brkVals (ctor J as e) = brkVals e := by
  simp [ctor, construct, brkVals, brkValsL, hidesCode, breakOf]

theorem brkVals_wrapHead (J : Job) (ks : List Node) : brkValsL (wrapHead J ks) = brkValsL ks := by
  cases ks with
  | nil => simp [wrapHead, brkValsL, brkVals_ctor, brkVals, hidesCode, breakOf]
  | cons e es => simp [wrapHead, brkValsL, brkVals_ctor]

theorem breaks_treat {J : Job} {en : Ident} : ∀ (n : Node) (w : Where) (ts1 ts2 : List Target) (nv : Bool),
    (∀ l, hits ts2 l = (hits ts1 l && !nv)) → calm en n = true →
    Aligned (Fate0 J) (breaks ts1 nv false n) (brkVals (treat J w ts2 .plain n)) := by
  refine Node.ind (P := fun n => ∀ (w : Where) (ts1 ts2 : List Target) (nv : Bool),
    (∀ l, hits ts2 l = (hits ts1 l && !nv)) → calm en n = true →
    Aligned (Fate0 J) (breaks ts1 nv false n) (brkVals (treat J w ts2 .plain n))) ?_
  intro k as ks ih w ts1 ts2 nv hts hcalm
  have hc : calmHere en (k, as) = true := by rw [calm_mk, Bool.and_eq_true] at hcalm; exact hcalm.1
  rw [treat.eq_def, breaks]
  dsimp only
  rw [role_calm hc]
  cases hh : hidesCode k with
  | true =>
    simp only [if_true, Bool.true_and]
    cases k <;> try (cases hh; done)
    case eMacro p t =>
      simp only [isMacroCall, Bool.not_true, Bool.false_eq_true, if_false, Bool.or_true, assemble,
        breakOf, Option.map_none, Option.toList_none, List.nil_append]
      have hl := tokensL_fate (J := J) (nv || (isExpression (.eMacro p t) && marked "never" as)) ks
        (around ts1 (.eMacro p t))
      split
      · rename_i e
        split
        · rw [brkVals_ctor]
          simpa [brkValsL] using hl
        · simpa [brkVals, hidesCode, isMacroCall, breakOf] using hl
      · simpa [brkVals, hidesCode, isMacroCall, breakOf] using hl
    all_goals
      simp [isMacroCall, assemble, brkVals, hidesCode, breakOf, Aligned.nil]
  | false =>
    have hkids : ∀ n ∈ ks, calm en n = true := by
      rw [calm_mk, hh, Bool.and_eq_true, Bool.false_or] at hcalm
      have := hcalm.2
      clear hcalm ih
      induction ks with
      | nil => intro _ h; cases h
      | cons a ks ih =>
        rw [calmL_cons, Bool.and_eq_true] at this
        intro n hn
        rcases List.mem_cons.mp hn with rfl | hn
        · exact this.1
        · exact ih this.2 n hn
    have hlist : ∀ (l : List Node) (w : Where) (t1 t2 : Nat → List Target) (rs : Nat → Role) (nv : Bool),
        (∀ n ∈ l, n ∈ ks) → (∀ i, rs i = .plain) →
        (∀ i lab, hits (t2 i) lab = (hits (t1 i) lab && !nv)) →
        Aligned (Fate0 J) (breaksL t1 nv false l) (brkValsL (treatL J w t2 rs l)) := by
      intro l
      induction l with
      | nil => intros; rw [breaksL, treatL, brkValsL]; exact .nil
      | cons a l ihl =>
        intro w t1 t2 rs nv hm hrs ht
        rw [breaksL, treatL, brkValsL, hrs 0]
        exact (ih a (hm a (by simp)) _ _ _ _ (ht 0) (hkids a (hm a (by simp)))).append
          (ihl _ _ _ _ _ (fun n h => hm n (by simp [h])) (fun i => hrs _) fun i => ht _)
    have hk := hlist ks (w.enter k) (around ts1 k) (fun i => kidTargets ts2 .plain k as i)
      (fun i => kidRole .plain k as ks.length i) (nv || (isExpression k && marked "never" as))
      (fun _ h => h) (fun i => kidRole_calm hc) (fun i lab => hits_kid hts k as i lab)
    simp only [Bool.false_and, Bool.false_eq_true, if_false]
    have hmac : isMacroCall k = false := by cases k <;> first | rfl | cases hh
    rw [hmac, Bool.or_false]
    generalize hks : treatL J (w.enter k) (fun i => kidTargets ts2 .plain k as i)
      (fun i => kidRole .plain k as ks.length i) ks = ks' at hk
    have hnb : (∀ l, k ≠ .eBreak l) → breakOf k = none := by
      intro hb
      unfold breakOf
      split
      · exact absurd rfl (hb _)
      · rfl
    have plain : ∀ as', (∀ l, k ≠ .eBreak l) →
        Aligned (Fate0 J) (breaksL (around ts1 k) (nv || (isExpression k && marked "never" as)) false ks)
          (brkVals (.mk k as' ks')) := by
      intro as' hb
      rw [brkVals, hh]
      simp only [Bool.false_and, Bool.false_eq_true, if_false]
      rw [hnb hb]
      simpa using hk
    by_cases hb : ∃ l, k = .eBreak l
    · obtain ⟨l, rfl⟩ := hb
      simp only [assemble]
      have hvals : ∀ as' ks2, brkVals (.mk (.eBreak l) as' ks2) = ks2.head?.map valOf :: brkValsL ks2 := by
        intro as' ks2
        simp [brkVals, hidesCode, breakOf]
      have hhit := hits_never hts (.eBreak l) as l
      simp only [isExpression, Bool.true_and] at hhit hk ⊢
      rw [isCallOf_val, hhit]
      have hfate : ∀ b, (if (⟨hits ts1 l, nv || marked "never" as, false, ks.head?.map valOf⟩ : Brk).ours
          J.marker = true then b = some (.call (variantPath J.en "")) else
          b = ks.head?.map valOf ∨ (ks.head?.map valOf = some (.mac (macroPath J.marker)) ∧
            b = some (.call (variantPath J.en "")))) →
          Fate0 J ⟨hits ts1 l, nv || marked "never" as, false, ks.head?.map valOf⟩ b := fun _ h => h
      split
      · rename_i hcond
        rw [hvals, brkVals_wrapHead]
        refine .cons (hfate _ ?_) hk
        rw [if_pos (by
          simp only [Bool.and_eq_true, Bool.not_eq_true', beq_eq_false_iff_ne] at hcond
          simp [Brk.ours, hcond.1.1, hcond.1.2, hcond.2])]
        cases ks' <;> simp [wrapHead, ctor, construct, valOf, calleeOf]
      · rename_i hcond
        rw [hvals]
        refine .cons (hfate _ ?_) hk
        rw [if_neg (by
          intro ho
          refine hcond ?_
          simp only [Brk.ours, Bool.and_eq_true, Bool.not_eq_true', bne_iff_ne] at ho
          simp [ho.1.1.1, ho.1.1.2, ho.2])]
        cases ks with
        | nil => rw [← hks, treatL]; left; rfl
        | cons e es =>
          rw [← hks, treatL, kidRole_calm hc]
          simp only [List.head?_cons, Option.map_some, Option.some.injEq]
          exact valOf_treat _ _ _ _ (hkids e (by simp))
    · have hb' : ∀ l, k ≠ .eBreak l := fun l h => hb ⟨l, h⟩
      rw [hnb hb']
      simp only [Option.map_none, Option.toList_none, List.nil_append]
      unfold assemble
      dsimp only
      split
      · split
        · have := plain [] hb'
          rw [brkVals] at this ⊢
          simpa [brkVals_wrapHead, hidesCode, breakOf] using this
        · exact plain _ hb'
      · exact absurd rfl (hb' _)
      · split
        · split
          · have := plain [] hb'
            simpa [brkVals, brkValsL, tryMatch, construct, hidesCode, breakOf] using this
          · exact plain _ hb'
        · exact plain _ hb'
      · cases hh
      · exact plain _ hb'
      · exact plain _ hb'
      · exact plain _ hb'
      · exact plain _ hb'

/-! ## Loops that contain `#[nested]` -/

/-- No inner attribute. -/
def flatHere (l : Label) : Bool := l.2.all fun a => !named "auto_enum" a

def flat (n : Node) : Bool := (visible n).all flatHere
def flatL (ns : List Node) : Bool := (visibleL ns).all flatHere

theorem flat_mk (k : Kind) (as : List Attr) (ks : List Node) :
    flat (.mk k as ks) = (flatHere (k, as) && (hidesCode k || flatL ks)) := by
  simp only [flat, visible, flatL, List.all_cons]
  cases hidesCode k <;> simp

theorem flatL_cons (n : Node) (ns : List Node) : flatL (n :: ns) = (flat n && flatL ns) := by
  simp [flatL, flat, visibleL]

theorem flat_name {k : Kind} {as : List Attr} {ks : List Node} (h : flat (.mk k as ks) = true) :
    as.any (named "auto_enum") = false := by
  rw [flat_mk, Bool.and_eq_true] at h
  have := h.1
  simp only [flatHere, List.all_eq_true, Bool.not_eq_true'] at this
  rw [List.any_eq_false]
  intro a ha
  simp [this a ha]

theorem flat_kids {k : Kind} {as : List Attr} {ks : List Node} (hh : hidesCode k = false)
    (h : flat (.mk k as ks) = true) : ∀ n ∈ ks, flat n = true := by
  rw [flat_mk, hh, Bool.and_eq_true, Bool.false_or] at h
  have := h.2
  clear h
  induction ks with
  | nil => intro _ h; cases h
  | cons a ks ih =>
    rw [flatL_cons, Bool.and_eq_true] at this
    intro n hn
    rcases List.mem_cons.mp hn with rfl | hn
    · exact this.1
    · exact ih this.2 n hn

/-- The root of the treatment of a node. -/
theorem treat_root_any (J : Job) (w : Where) (ts : List Target) (r : Role) {k : Kind} {as : List Attr}
    {ks : List Node} (h : flat (.mk k as ks) = true) :
    ∃ k' as' ks', treat J w ts r (.mk k as ks) = .mk k' as' ks' ∧
      as'.any (named "auto_enum") = false ∧
      (k' = k ∨ (k = .eTry ∧ k' = .eMatch) ∨
        (∃ t e, k = .eMacro (macroPath J.marker) t ∧ ks = [e] ∧ k' = .eCall ∧
          ks' = [.mk (.ePath false (variantPath J.en "")) [] [], e])) := by
  have hn := flat_name h
  have hn' : (if carries k then strip as else as).any (named "auto_enum") = false := by
    split
    · exact strip_any hn
    · exact hn
  rw [treat.eq_def]
  unfold assemble
  dsimp only
  generalize (if hidesCode k then ks else _) = ks1
  split
  · split <;> exact ⟨_, _, _, rfl, hn', .inl rfl⟩
  · split <;> exact ⟨_, _, _, rfl, hn', .inl rfl⟩
  · split
    · split
      · exact ⟨_, _, _, rfl, hn', .inr (.inl ⟨rfl, rfl⟩)⟩
      · exact ⟨_, _, _, rfl, hn', .inl rfl⟩
    · exact ⟨_, _, _, rfl, hn', .inl rfl⟩
  · split
    · split
      · rename_i hp
        subst hp
        exact ⟨_, _, _, rfl, hn', .inr (.inr ⟨_, _, rfl, rfl, rfl, rfl⟩)⟩
      · exact ⟨_, _, _, rfl, hn', .inl rfl⟩
    · exact ⟨_, _, _, rfl, hn', .inl rfl⟩
  · exact ⟨_, _, _, rfl, hn', .inl rfl⟩
  · exact ⟨_, _, _, rfl, hn', .inl rfl⟩
  · exact ⟨_, _, _, rfl, hn', .inl rfl⟩
  · exact ⟨_, _, _, rfl, hn', .inl rfl⟩

theorem valOf_treat_any (J : Job) (w : Where) (ts : List Target) (r : Role) (n : Node)
    (h : flat n = true) : ValFate J (valOf n) (valOf (treat J w ts r n)) := by
  obtain ⟨k, as, ks⟩ := n
  have hn := flat_name h
  obtain ⟨k', as', ks', he, hn', hk⟩ := treat_root_any J w ts r h
  by_cases hcall : k = .eCall
  · subst hcall
    have hst := strip_any hn
    cases ks with
    | nil =>
      rw [treat.eq_def]
      simp [assemble, hidesCode, treatL, carries, isExpression, valOf, hn, hst, ValFate]
    | cons c cs =>
      have hc : flat c = true := flat_kids rfl h c (by simp)
      obtain ⟨kc, asc, ksc⟩ := c
      rw [treat.eq_def]
      simp only [assemble, hidesCode, Bool.false_eq_true, if_false, treatL, carries, isExpression, if_true,
        Where.enter]
      generalize kidRole (role J r .eCall as _) .eCall as _ 0 = r0
      generalize kidTargets ts (role J r .eCall as _) .eCall as 0 = t0
      obtain ⟨kc', asc', ksc', hce, hcn', hck⟩ := treat_root_any J w t0 r0 hc
      have hcn := flat_name hc
      simp only [valOf, hn, hst, hce, Bool.false_eq_true, if_false]
      left
      by_cases hp : ∃ p, kc = .ePath false p
      · obtain ⟨p, rfl⟩ := hp
        have : kc' = .ePath false p := by
          rcases hck with h | ⟨h, _⟩ | ⟨_, _, h, _⟩
          · exact h
          · cases h
          · cases h
        subst this
        rw [calleeOf_path _ _ _ _ hcn, calleeOf_path _ _ _ _ hcn']
      · rw [calleeOf_other hcn fun p h => hp ⟨p, h⟩, calleeOf_other hcn' fun p h => ?_]
        rcases hck with h2 | ⟨_, h2⟩ | ⟨_, _, _, _, h2, _⟩
        · exact hp ⟨p, h2.symm.trans h⟩
        · rw [h2] at h; cases h
        · rw [h2] at h; cases h
  · rw [he]
    rcases hk with rfl | ⟨rfl, rfl⟩ | ⟨t, e, rfl, rfl, rfl, rfl⟩
    · left
      unfold valOf
      dsimp only
      rw [hn, hn']
      split <;> first | rfl | exact absurd rfl hcall
    · left
      simp [valOf, hn, hn']
    · right
      simp [valOf, hn', calleeOf]

theorem nestedBreaks_vals (J : Job) : ∀ (n : Node) (ts : List Target) (r : Role) (tk : Bool),
    (nestedBreaks J ts r tk n).map (·.value) = brkVals n := by
  refine Node.ind (P := fun n => ∀ (ts : List Target) (r : Role) (tk : Bool),
    (nestedBreaks J ts r tk n).map (·.value) = brkVals n) ?_
  intro k as ks ih ts r tk
  rw [nestedBreaks, brkVals]
  rw [List.map_append]
  have h0 : ∀ (a b c d : List (Option Val)), a = c → b = d → a ++ b = c ++ d := by
    intro a b c d h1 h2; rw [h1, h2]
  refine h0 _ _ _ _ ?_ ?_
  · cases breakOf k <;> rfl
  · split
    · rfl
    · have : ∀ (l : List Node) (ts : Nat → List Target) (rs : Nat → Role) (tk : Bool), (∀ n ∈ l, n ∈ ks) →
          (nestedBreaksL J ts rs tk l).map (·.value) = brkValsL l := by
        intro l
        induction l with
        | nil => intros; rfl
        | cons a l ihl =>
          intro ts rs tk hm
          rw [nestedBreaksL, brkValsL, List.map_append, ih a (hm a (by simp)),
            ihl _ _ _ fun n h => hm n (by simp [h])]
      exact this _ _ _ _ fun _ h => h

theorem nestedBreaks_tokens (J : Job) : ∀ (n : Node) (ts : List Target) (r : Role),
    ∀ a ∈ nestedBreaks J ts r true n, a.tokens = true := by
  refine Node.ind (P := fun n => ∀ (ts : List Target) (r : Role),
    ∀ a ∈ nestedBreaks J ts r true n, a.tokens = true) ?_
  intro k as ks ih ts r a ha
  rw [nestedBreaks, List.mem_append] at ha
  rcases ha with ha | ha
  · cases hb : breakOf k <;> rw [hb] at ha
    · cases ha
    · simp only [Option.map_some, Option.toList_some, List.mem_singleton] at ha; rw [ha]
  · split at ha
    · cases ha
    · have : ∀ (l : List Node) (ts : Nat → List Target) (rs : Nat → Role), (∀ n ∈ l, n ∈ ks) →
          ∀ a ∈ nestedBreaksL J ts rs true l, a.tokens = true := by
        intro l
        induction l with
        | nil => intro _ _ _ _ h; cases h
        | cons b l ihl =>
          intro ts rs hm a ha
          rw [nestedBreaksL, List.mem_append] at ha
          rcases ha with ha | ha
          · exact ih b (hm b (by simp)) _ _ _ ha
          · exact ihl _ _ (fun n h => hm n (by simp [h])) _ ha
      rw [Bool.true_or] at ha
      exact this _ _ _ (fun _ h => h) a ha

theorem nestedTokensL_fate {J : Job} : ∀ (ns : List Node) (ts : Nat → List Target) (rs : Nat → Role),
    Aligned (Fate0 J) (nestedBreaksL J ts rs true ns) (brkValsL ns)
  | [], _, _ => by rw [nestedBreaksL, brkValsL]; exact .nil
  | n :: ns, ts, rs => by
    rw [nestedBreaksL, brkValsL]
    refine Aligned.append ?_ (nestedTokensL_fate ns _ _)
    rw [← nestedBreaks_vals J n (ts 0) (rs 0) true]
    exact fate_tokens (nestedBreaks_tokens J n _ _)

theorem brkVals_wrapLast (J : Job) : ∀ ks : List Node, brkValsL (wrapLast J ks) = brkValsL ks
  | [] => rfl
  | [e] => by simp [wrapLast, brkValsL, brkVals_ctor]
  | e :: e' :: es => by rw [wrapLast, brkValsL, brkVals_wrapLast J (e' :: es)]; rfl

theorem brkVals_wrapAll (J : Job) (ss : List Node) : brkValsL (wrapAll J ss) = brkValsL ss := by
  simp [wrapAll, brkValsL, brkVals, brkVals_ctor, hidesCode, breakOf]

theorem through_congr {ts1 ts2 : List Target} (h : ∀ l, hits ts1 l = hits ts2 l) (k : Kind) (as : List Attr)
    (l : Option String) : hits (through ts1 k as) l = hits (through ts2 k as) l := by
  unfold through
  split
  · rw [hits_off, hits_off]
  · exact h l

theorem hits_cons_congr {ts1 ts2 : List Target} (h : ∀ l, hits ts1 l = hits ts2 l) (t : Target)
    (l : Option String) : hits (t :: ts1) l = hits (t :: ts2) l := by
  cases l <;> simp only [hits] <;> split <;> simp [h]

theorem kidTargets_congr {ts1 ts2 : List Target} (h : ∀ l, hits ts1 l = hits ts2 l) (r : Role) (k : Kind)
    (as : List Attr) (i : Nat) (l : Option String) :
    hits (kidTargets ts1 r k as i) l = hits (kidTargets ts2 r k as i) l := by
  have ht := through_congr h k as
  unfold kidTargets
  split
  · rfl
  · rfl
  · exact hits_cons_congr ht _ l
  · exact hits_cons_congr ht _ l
  · split
    · exact ht l
    · exact hits_cons_congr ht _ l
  · exact hits_cons_congr ht _ l
  · exact ht l

theorem nestedBreaks_treat {J : Job} : ∀ (n : Node) (w : Where) (ts1 ts2 : List Target) (r : Role),
    (∀ l, hits ts1 l = hits ts2 l) → flat n = true →
    Aligned (Fate0 J) (nestedBreaks J ts1 r false n) (brkVals (treat J w ts2 r n)) := by
  refine Node.ind (P := fun n => ∀ (w : Where) (ts1 ts2 : List Target) (r : Role),
    (∀ l, hits ts1 l = hits ts2 l) → flat n = true →
    Aligned (Fate0 J) (nestedBreaks J ts1 r false n) (brkVals (treat J w ts2 r n))) ?_
  intro k as ks ih w ts1 ts2 r hts hflat
  rw [treat.eq_def, nestedBreaks]
  dsimp only
  generalize role J r k as ks = r0
  cases hh : hidesCode k with
  | true =>
    simp only [if_true, Bool.true_and]
    cases k <;> try (cases hh; done)
    case eMacro p t =>
      simp only [isMacroCall, Bool.not_true, Bool.false_eq_true, if_false, Bool.or_true, assemble,
        breakOf, Option.map_none, Option.toList_none, List.nil_append]
      have hl := nestedTokensL_fate (J := J) ks (fun i => kidTargets ts1 r0 (.eMacro p t) as i)
        (fun i => kidRole r0 (.eMacro p t) as ks.length i)
      split
      · rename_i e
        split
        · rw [brkVals_ctor]
          simpa [brkValsL] using hl
        · simpa [brkVals, hidesCode, isMacroCall, breakOf] using hl
      · simpa [brkVals, hidesCode, isMacroCall, breakOf] using hl
    all_goals
      simp [isMacroCall, assemble, brkVals, hidesCode, breakOf, Aligned.nil]
  | false =>
    have hkids := flat_kids hh hflat
    have hlist : ∀ (l : List Node) (w : Where) (t1 t2 : Nat → List Target) (rs : Nat → Role),
        (∀ n ∈ l, n ∈ ks) → (∀ i lab, hits (t1 i) lab = hits (t2 i) lab) →
        Aligned (Fate0 J) (nestedBreaksL J t1 rs false l) (brkValsL (treatL J w t2 rs l)) := by
      intro l
      induction l with
      | nil => intros; rw [nestedBreaksL, treatL, brkValsL]; exact .nil
      | cons a l ihl =>
        intro w t1 t2 rs hm ht
        rw [nestedBreaksL, treatL, brkValsL]
        exact (ih a (hm a (by simp)) _ _ _ _ (ht 0) (hkids a (hm a (by simp)))).append
          (ihl _ _ _ _ (fun n h => hm n (by simp [h])) fun i => ht _)
    have hk := hlist ks (w.enter k) (fun i => kidTargets ts1 r0 k as i) (fun i => kidTargets ts2 r0 k as i)
      (fun i => kidRole r0 k as ks.length i) (fun _ h => h) (fun i lab => kidTargets_congr hts r0 k as i lab)
    simp only [Bool.false_and, Bool.false_eq_true, if_false]
    have hmac : isMacroCall k = false := by cases k <;> first | rfl | cases hh
    rw [hmac, Bool.or_false]
    generalize hks : treatL J (w.enter k) (fun i => kidTargets ts2 r0 k as i)
      (fun i => kidRole r0 k as ks.length i) ks = ks' at hk
    generalize hold : nestedBreaksL J (fun i => kidTargets ts1 r0 k as i)
      (fun i => kidRole r0 k as ks.length i) false ks = bs at hk
    have hnb : (∀ l, k ≠ .eBreak l) → breakOf k = none := by
      intro hb
      unfold breakOf
      split
      · exact absurd rfl (hb _)
      · rfl
    have plain : ∀ as' ks2, brkValsL ks2 = brkValsL ks' → (∀ l, k ≠ .eBreak l) →
        Aligned (Fate0 J) bs (brkVals (.mk k as' ks2)) := by
      intro as' ks2 he hb
      rw [brkVals, hh]
      simp only [Bool.false_and, Bool.false_eq_true, if_false]
      rw [hnb hb, he]
      simpa using hk
    by_cases hb : ∃ l, k = .eBreak l
    · obtain ⟨l, rfl⟩ := hb
      simp only [assemble]
      have hvals : ∀ as' ks2, brkVals (.mk (.eBreak l) as' ks2) = ks2.head?.map valOf :: brkValsL ks2 := by
        intro as' ks2
        simp [brkVals, hidesCode, breakOf]
      rw [isCallOf_val, ← through_congr hts (.eBreak l) as l]
      simp only [breakOf, Option.map_some, Option.toList_some, List.singleton_append]
      have hnever : marked "never" as = true → hits (through ts1 (.eBreak l) as) l = false := by
        intro h
        rw [through, if_pos (by simpa [isExpression] using h)]
        exact hits_off ..
      generalize hits (through ts1 (.eBreak l) as) l = hit at hnever
      split
      · rename_i hcond
        rw [hvals, brkVals_wrapHead]
        refine .cons ?_ hk
        unfold Fate0
        rw [if_pos (by
          simp only [Bool.and_eq_true, Bool.not_eq_true', beq_eq_false_iff_ne] at hcond
          have hm : marked "never" as = false := by
            cases hm : marked "never" as
            · rfl
            · exact absurd (hnever hm) (by simp [hcond.1])
          simp [Brk.ours, hcond.1, hcond.2, hm])]
        cases ks' <;> simp [wrapHead, ctor, construct, valOf, calleeOf]
      · rename_i hcond
        rw [hvals]
        refine .cons ?_ hk
        unfold Fate0
        rw [if_neg (by
          intro ho
          refine hcond ?_
          simp only [Brk.ours, Bool.and_eq_true, Bool.not_eq_true', bne_iff_ne] at ho
          simp [ho.1.1.1, ho.2])]
        cases ks with
        | nil => rw [← hks, treatL]; left; rfl
        | cons e es =>
          rw [← hks, treatL]
          simp only [List.head?_cons, Option.map_some, Option.some.injEq]
          exact valOf_treat_any _ _ _ _ _ (hkids e (by simp))
    · have hb' : ∀ l, k ≠ .eBreak l := fun l h => hb ⟨l, h⟩
      rw [hnb hb']
      simp only [Option.map_none, Option.toList_none, List.nil_append]
      unfold assemble
      dsimp only
      split
      · split
        · exact plain _ _ (brkVals_wrapHead ..) hb'
        · exact plain _ _ rfl hb'
      · exact absurd rfl (hb' _)
      · split
        · split
          · have := plain [] _ rfl hb'
            simpa [brkVals, brkValsL, tryMatch, construct, hidesCode, breakOf] using this
          · exact plain _ _ rfl hb'
        · exact plain _ _ rfl hb'
      · cases hh
      · refine plain _ _ ?_ hb'
        split
        · exact brkVals_wrapLast ..
        · rfl
      · refine plain _ _ ?_ hb'
        split
        · exact brkVals_wrapAll ..
        · rfl
      · refine plain _ _ ?_ hb'
        split
        · exact brkVals_wrapAll ..
        · rfl
      · exact plain _ _ rfl hb'

/-! ## Names of variants -/

def blurPath (en : Ident) (p : Path) : Path :=
  match blurK en (.ePath false p) with
  | .ePath _ p' => p'
  | _ => p

def blurVal (en : Ident) : Val → Val
  | .call p => .call (blurPath en p)
  | v => v

theorem blurK_blurPath (en : Ident) (p : Path) : blurK en (.ePath false p) = .ePath false (blurPath en p) := by
  obtain ⟨p', hp⟩ := blurK_ePath en false p
  simp [blurPath, hp]

theorem blurPath_cases (en : Ident) (p : Path) :
    (∃ v, p = variantPath en v ∧ blurPath en p = variantPath en "") ∨
      ((∀ v, p ≠ variantPath en v) ∧ blurPath en p = p) := by
  by_cases h : ∃ v, p = variantPath en v
  · obtain ⟨v, rfl⟩ := h
    exact .inl ⟨v, rfl, by simp [blurPath, blurK, variantPath]⟩
  · refine .inr ⟨fun v hv => h ⟨v, hv⟩, ?_⟩
    unfold blurPath blurK
    split
    · rename_i heq
      split at heq
      · rename_i heq2
        cases heq2
        split at heq
        · rename_i he
          subst he
          exact absurd ⟨_, rfl⟩ h
        · cases heq; rfl
      · cases heq; rfl
    · rfl

theorem blurK_other (en : Ident) {k : Kind} (h : ∀ p, k ≠ .ePath false p) : blurK en k = k := by
  unfold blurK
  split
  · exact absurd rfl (h _)
  · rfl

theorem calleeOf_blur (en : Ident) (ns : List Node) :
    calleeOf (blurL en ns) = blurVal en (calleeOf ns) := by
  cases ns with
  | nil => rfl
  | cons n ns =>
    obtain ⟨k, as, ks⟩ := n
    rw [blurL, blur]
    by_cases h : ∃ p, k = .ePath false p
    · obtain ⟨p, rfl⟩ := h
      rw [blurK_blurPath]
      simp only [calleeOf]
      split <;> rfl
    · have hk : ∀ p, k ≠ .ePath false p := fun p hp => h ⟨p, hp⟩
      rw [blurK_other en hk]
      have : ∀ ks' ns', calleeOf (.mk k as ks' :: ns') = if as.any (named "auto_enum") then .inner else .other := by
        intro ks' ns'
        unfold calleeOf
        split
        · rename_i heq; cases heq; exact absurd rfl (hk _)
        · rename_i heq; cases heq; rfl
        · rename_i heq; cases heq
      rw [this, this]
      split <;> rfl

theorem valOf_blur (en : Ident) (n : Node) : valOf (blur en n) = blurVal en (valOf n) := by
  obtain ⟨k, as, ks⟩ := n
  rw [blur]
  by_cases h : ∃ p, k = .ePath false p
  · obtain ⟨p, rfl⟩ := h
    rw [blurK_blurPath]
    simp only [valOf]
    split <;> rfl
  · rw [blurK_other en fun p hp => h ⟨p, hp⟩]
    unfold valOf
    dsimp only
    split
    · rfl
    · rw [calleeOf_blur]
      split <;> rfl
    · split <;> rfl

theorem brkVals_blur (en : Ident) : ∀ n, brkVals (blur en n) = (brkVals n).map (Option.map (blurVal en)) := by
  refine Node.ind (P := fun n => brkVals (blur en n) = (brkVals n).map (Option.map (blurVal en))) ?_
  intro k as ks ih
  have hk : breakOf (blurK en k) = breakOf k ∧ hidesCode (blurK en k) = hidesCode k ∧
      isMacroCall (blurK en k) = isMacroCall k := by
    by_cases h : ∃ p, k = .ePath false p
    · obtain ⟨p, rfl⟩ := h
      rw [blurK_blurPath]
      exact ⟨rfl, rfl, rfl⟩
    · rw [blurK_other en fun p hp => h ⟨p, hp⟩]
      exact ⟨rfl, rfl, rfl⟩
  have hl : ∀ l : List Node, (∀ n ∈ l, n ∈ ks) →
      brkValsL (blurL en l) = (brkValsL l).map (Option.map (blurVal en)) := by
    intro l
    induction l with
    | nil => intro _; rfl
    | cons a l ihl =>
      intro hm
      rw [blurL, brkValsL, brkValsL, List.map_append, ih a (hm a (by simp)),
        ihl fun n h => hm n (by simp [h])]
  rw [blur, brkVals, brkVals, hk.1, hk.2.1, hk.2.2, List.map_append, hl ks fun _ h => h]
  have hhead : (blurL en ks).head?.map valOf = (ks.head?.map valOf).map (blurVal en) := by
    cases ks with
    | nil => rfl
    | cons a ks => simp [blurL, valOf_blur]
  rw [hhead]
  cases breakOf k <;> split <;> rfl

theorem calleeOf_call {ns : List Node} {p : Path} (h : calleeOf ns = .call p) :
    ∃ as, (Kind.ePath false p, as) ∈ labelsL ns := by
  unfold calleeOf at h
  split at h
  · split at h
    · cases h
    · cases h
      exact ⟨_, by rw [labelsL_cons, labels_mk]; exact List.mem_append_left _ (List.mem_cons_self ..)⟩
  · split at h <;> cases h
  · cases h

theorem valOf_call {n : Node} {p : Path} (h : valOf n = .call p) :
    ∃ as, (Kind.ePath false p, as) ∈ labels n := by
  obtain ⟨k, as, ks⟩ := n
  unfold valOf at h
  dsimp only at h
  split at h
  · cases h
  · split at h
    · cases h
    · obtain ⟨as, ha⟩ := calleeOf_call h
      exact ⟨as, by simp [ha]⟩
  · split at h <;> cases h

theorem brkVals_call {p : Path} : ∀ n, some (.call p) ∈ brkVals n →
    ∃ as, (Kind.ePath false p, as) ∈ labels n := by
  refine Node.ind (P := fun n => some (.call p) ∈ brkVals n →
    ∃ as, (Kind.ePath false p, as) ∈ labels n) ?_
  intro k as ks ih h
  rw [brkVals, List.mem_append] at h
  rcases h with h | h
  · cases hb : breakOf k with
    | none => rw [hb] at h; cases h
    | some l =>
      rw [hb] at h
      simp only [Option.map_some, Option.toList_some, List.mem_singleton] at h
      cases ks with
      | nil => cases h
      | cons e es =>
        simp only [List.head?_cons, Option.map_some, Option.some.injEq] at h
        obtain ⟨as, ha⟩ := valOf_call h.symm
        exact ⟨as, by simp [ha]⟩
  · split at h
    · cases h
    · have : ∀ l : List Node, (∀ n ∈ l, n ∈ ks) → some (.call p) ∈ brkValsL l →
          ∃ as, (Kind.ePath false p, as) ∈ labelsL l := by
        intro l
        induction l with
        | nil => intro _ h; cases h
        | cons a l ihl =>
          intro hm h
          rw [brkValsL, List.mem_append] at h
          rcases h with h | h
          · obtain ⟨as, ha⟩ := ih a (hm a (by simp)) h
            exact ⟨as, by simp [ha]⟩
          · obtain ⟨as, ha⟩ := ihl (fun n h => hm n (by simp [h])) h
            exact ⟨as, by simp [ha]⟩
      obtain ⟨as, ha⟩ := this ks (fun _ h => h) h
      exact ⟨as, by simp [ha]⟩

/-- From the treatment to the output, which is the same up to the names of variants. -/
theorem fate_out {J : Job} : ∀ {l : List Brk} {vs : List (Option Val)} {l' : List Brk},
    Aligned (Fate0 J) l vs →
    l'.map (fun b => b.value.map (blurVal J.en)) = vs.map (Option.map (blurVal J.en)) →
    (∀ a ∈ l, ∀ v, a.value ≠ some (.call (variantPath J.en v))) →
    Aligned (Brk.Fate J.en J.marker) l l'
  | _, _, [], .nil, _, _ => .nil
  | _, _, _ :: _, .nil, h, _ => by cases h
  | _, _, [], .cons _ _, h, _ => by cases h
  | a :: l, v :: vs, b :: l', .cons h1 h2, h, hf => by
    simp only [List.map_cons, List.cons.injEq] at h
    refine .cons ?_ (fate_out h2 h.2 fun a ha => hf a (by simp [ha]))
    have hb := h.1
    have hnew : v = some (.call (variantPath J.en "")) → Constructs J.en b.value := by
      rintro rfl
      cases hv : b.value with
      | none => rw [hv] at hb; cases hb
      | some x =>
        rw [hv] at hb
        simp only [Option.map_some, Option.some.injEq] at hb
        have h0 : blurVal J.en (.call (variantPath J.en "")) = .call (variantPath J.en "") := by
          simp only [blurVal]
          rcases blurPath_cases J.en (variantPath J.en "") with ⟨_, _, h⟩ | ⟨h, _⟩
          · rw [h]
          · exact absurd rfl (h _)
        rw [h0] at hb
        cases x with
        | call p =>
          simp only [blurVal, Val.call.injEq] at hb
          rcases blurPath_cases J.en p with ⟨v, hp, _⟩ | ⟨hp, hp2⟩
          · exact ⟨v, by rw [hp]⟩
          · exact absurd (hp2.symm.trans hb) (hp _)
        | mac _ => cases hb
        | inner => cases hb
        | other => cases hb
    unfold Fate0 at h1
    unfold Brk.Fate
    split at h1
    · rename_i ho
      rw [if_pos ho]
      exact hnew h1
    · rename_i ho
      rw [if_neg ho]
      rcases h1 with h1 | ⟨h1, h1'⟩
      · left
        rw [h1] at hb
        have hfr := hf a (by simp)
        cases hv : b.value with
        | none =>
          rw [hv] at hb
          cases ha : a.value with
          | none => rfl
          | some _ => rw [ha] at hb; cases hb
        | some x =>
          cases ha : a.value with
          | none => rw [hv, ha] at hb; cases hb
          | some y =>
            rw [hv, ha] at hb
            simp only [Option.map_some, Option.some.injEq] at hb
            congr 1
            rw [ha] at hfr
            have hy : blurVal J.en y = y := by
              cases y with
              | call p =>
                rcases blurPath_cases J.en p with ⟨v, hp, _⟩ | ⟨_, hp⟩
                · exact absurd (by rw [hp]) (hfr v)
                · simp [blurVal, hp]
              | mac _ => rfl
              | inner => rfl
              | other => rfl
            rw [hy] at hb
            cases x with
            | call p =>
              rcases blurPath_cases J.en p with ⟨v, hp, hp2⟩ | ⟨_, hp⟩
              · simp only [blurVal, hp2] at hb
                rw [← hb] at hfr
                exact absurd rfl (hfr "")
              · simpa [blurVal, hp] using hb
            | mac _ => exact hb
            | inner => exact hb
            | other => exact hb
      · exact .inr ⟨h1, hnew h1'⟩

/-! ## Where the loop comes from -/

theorem labels_lastOf {ks : List Node}
    (ih : ∀ m, sizeOf m < sizeOf ks → ∀ l ∈ labels (resultOf m), l ∈ labels m ∨ l = (.eTuple, [])) :
    ∀ l ∈ labels (lastOf ks), l ∈ labelsL ks ∨ l = (.eTuple, []) := by
  induction ks with
  | nil => intro l hl; right; simpa [lastOf] using hl
  | cons n ns ihl =>
    intro l hl
    cases ns with
    | nil =>
      rcases Classical.em (∃ as e, n = .mk (.sExpr false) as [e]) with ⟨as, e, rfl⟩ | hne
      · simp only [lastOf] at hl
        rcases ih e (by simp; omega) l hl with h | h
        · left; simp [h]
        · exact .inr h
      · have : lastOf [n] = .mk .eTuple [] [] := by
          rw [lastOf.eq_def]
          split
          · rename_i heq; cases heq
          · rename_i heq; cases heq; exact absurd ⟨_, _, rfl⟩ hne
          · rfl
          · rename_i heq; cases heq
        rw [this] at hl
        right; simpa using hl
    | cons n' ns =>
      simp only [lastOf] at hl
      rcases ihl (fun m hm => ih m (by simp at hm ⊢; omega)) l hl with h | h
      · left
        rw [labelsL_cons]
        exact List.mem_append_right _ h
      · exact .inr h

theorem labels_resultOf : ∀ n, ∀ l ∈ labels (resultOf n), l ∈ labels n ∨ l = (.eTuple, []) := by
  apply Node.strongInd
  rintro ⟨k, as, ks⟩ ih l hl
  have hself : resultOf (.mk k as ks) = .mk k as ks → l ∈ labels (.mk k as ks) ∨ l = (.eTuple, []) := by
    intro h; rw [h] at hl; exact .inl hl
  have hlast := labels_lastOf (ks := ks) (fun m hm => ih m (by simp; omega)) l
  cases k <;> try (refine hself ?_; rw [resultOf.eq_def]; done)
  case eBlock lab =>
    simp only [resultOf] at hl
    rcases hlast hl with h | h
    · left; simp [h]
    · exact .inr h
  case eUnsafe =>
    simp only [resultOf] at hl
    rcases hlast hl with h | h
    · left; simp [h]
    · exact .inr h
  case eParen =>
    rcases ks with _ | ⟨e, _ | ⟨e2, es⟩⟩
    · exact hself (by rw [resultOf.eq_def])
    · simp only [resultOf] at hl
      rcases ih e (by simp; omega) l hl with h | h
      · left; simp [h]
      · exact .inr h
    · exact hself (by rw [resultOf.eq_def])
  case eMethodCall m =>
    rcases ks with _ | ⟨e, es⟩
    · exact hself (by rw [resultOf.eq_def])
    · simp only [resultOf] at hl
      rcases ih e (by simp; omega) l hl with h | h
      · left; simp [h]
      · exact .inr h

theorem labels_startOf (n : Node) : ∀ l ∈ labels (startOf n), l ∈ labels n ∨ l = (.eBlock none, []) := by
  have hb : ∀ e, ∀ l ∈ labels (bodyOf e), l ∈ labels e := by
    intro e l hl
    unfold bodyOf at hl
    split at hl
    · simp [hl]
    · exact hl
  intro l hl
  replace hl := hb _ _ hl
  unfold targetOf at hl
  split at hl
  · left; simp [hl]
  · left; simp [hl]
  · simp only [labels_mk, List.mem_cons] at hl
    rcases hl with rfl | hl
    · exact .inr rfl
    · left; simp [hl]
  · exact .inl hl

theorem visible_labels : ∀ (n : Node) (l : Label), l ∈ visible n → l ∈ labels n := by
  refine Node.ind (P := fun n => ∀ (l : Label), l ∈ visible n → l ∈ labels n) ?_
  intro k as ks ih l hl
  rw [visible, List.mem_cons] at hl
  rw [labels_mk, List.mem_cons]
  rcases hl with rfl | hl
  · exact .inl rfl
  · right
    split at hl
    · cases hl
    · have : ∀ ns : List Node, (∀ n ∈ ns, n ∈ ks) → l ∈ visibleL ns → l ∈ labelsL ns := by
        intro ns
        induction ns with
        | nil => intro _ h; cases h
        | cons a ns ihl =>
          intro hm h
          rw [visibleL, List.mem_append] at h
          rw [labelsL_cons, List.mem_append]
          rcases h with h | h
          · exact .inl (ih a (hm a (by simp)) l h)
          · exact .inr (ihl (fun n h => hm n (by simp [h])) h)
      exact this ks (fun _ h => h) hl

theorem labels_result (n : Node) : ∀ l ∈ labels (resultOf (startOf n)),
    l ∈ labels n ∨ l = (.eTuple, []) ∨ l = (.eBlock none, []) := by
  intro l hl
  rcases labels_resultOf _ l hl with h | h
  · rcases labels_startOf n l h with h | h
    · exact .inl h
    · exact .inr (.inr h)
  · exact .inr (.inl h)

theorem isCtor_zero {en : Ident} {n : Node} (h : ctors en n = 0) : ∀ l ∈ labels n, isCtor en l = 0 := by
  unfold ctors weigh at h
  intro l hl
  have := List.sum_eq_zero_iff_forall_eq_nat.mp h (isCtor en l) (List.mem_map.mpr ⟨l, hl, rfl⟩)
  exact this

/-- What is inside of the expression in result position of a simple input. -/
theorem Simple.result {en : Ident} {m : String} {n : Node} (hs : Simple en m n) :
    ∀ l ∈ labels (resultOf (startOf n)), (∀ a ∈ l.2, named "auto_enum" a = false) ∧ isCtor en l = 0 := by
  intro l hl
  rcases labels_result n l hl with h | rfl | rfl
  · exact ⟨fun a ha => hs.inner a (mem_allAttrs.mpr ⟨l, h, ha⟩), isCtor_zero hs.fresh l h⟩
  · exact ⟨by simp, rfl⟩
  · exact ⟨by simp, rfl⟩

theorem flat_of {body : Node} (h : ∀ l ∈ labels body, ∀ a ∈ l.2, named "auto_enum" a = false) :
    flat body = true := by
  simp only [flat, List.all_eq_true, flatHere, Bool.not_eq_true']
  exact fun l hl a ha => h l (visible_labels _ l hl) a ha

theorem calm_of {en : Ident} {n : Node}
    (h1 : ∀ l ∈ labels n, (∀ a ∈ l.2, named "auto_enum" a = false) ∧ isCtor en l = 0)
    (h2 : hasNested [n] = false) : calm en n = true := by
  unfold calm
  rw [List.all_eq_true]
  intro l hl
  have h3 := h1 l (visible_labels n l hl)
  unfold hasNested at h2
  rw [List.any_eq_false] at h2
  have h4 := h2 l (by simpa [visibleL] using hl)
  simp only [calmHere, Bool.and_eq_true, List.all_eq_true, beq_iff_eq, Bool.not_eq_true']
  exact ⟨⟨by simpa using h4, h3.1⟩, h3.2⟩

end AutoEnums
