import Verif.Lemmas.Balance
import Verif.Lemmas.Args
import Verif.Lemmas.Types
import Verif.Lemmas.Names
import Verif.Spec.Enum

/-! # Generated enums (for C02) -/

namespace AutoEnums

open Spec

/-- The origin of the context's arguments and traits, with respect to the labels `L`. -/
structure Src (env : Env) (toks : List Tok) (inp : Node) (cx : Cx) : Prop where
  ident : ∃ h, cx.ident = enumIdent h
  variants : cx.variants = (List.range cx.variants.length).map variantIdent
  args : Requested toks inp cx.args
  traits : Inferred env.typeAnalysis inp cx.args cx.traits

theorem Src.next {env : Env} {toks : List Tok} {inp : Node} {cx : Cx} (h : Src env toks inp cx)
    (as : List Attr) (e : Node) : Src env toks inp (cx.nextExprAttrs as e).1 := by
  refine ⟨h.ident, ?_, h.args, h.traits⟩
  simp only [Cx.nextExprAttrs, List.length_append, List.length_singleton, List.range_succ,
    List.map_append, List.map_cons, List.map_nil]
  rw [← h.variants]

theorem Src.book {env : Env} {toks : List Tok} {inp : Node} {a b : Cx} (h : Src env toks inp a)
    (hb : Core a b) : Src env toks inp b :=
  ⟨by rw [hb.ident]; exact h.ident, by rw [hb.variants]; exact h.variants,
    by rw [hb.args]; exact h.args, by rw [hb.args, hb.traits]; exact h.traits⟩

theorem mem_allAttrs {a : Attr} {n : Node} :
    a ∈ allAttrs n ↔ ∃ l ∈ labels n, a ∈ l.2 := by
  simp [allAttrs]

/-- A label is harmless w.r.t. `inp`. -/
def OkLabel (inp : Node) (l : Label) : Prop :=
  (∀ a ∈ l.2, a ∈ allAttrs inp) ∧
    ∀ ty, annotationOf l = some ty → ∃ l' ∈ labels inp, annotationOf l' = some ty

def Ok (inp : Node) (n : Node) : Prop := ∀ l ∈ labels n, OkLabel inp l

theorem ok_mk {inp : Node} {k : Kind} {as : List Attr} {ks : List Node} :
    Ok inp (.mk k as ks) ↔ OkLabel inp (k, as) ∧ ∀ c ∈ ks, Ok inp c := by
  unfold Ok
  simp only [labels_mk, List.mem_cons, forall_eq_or_imp, mem_labelsL]
  constructor
  · rintro ⟨h1, h2⟩
    exact ⟨h1, fun c hc l hl => h2 l ⟨c, hc, hl⟩⟩
  · rintro ⟨h1, h2⟩
    exact ⟨h1, fun l ⟨c, hc, hl⟩ => h2 c hc l hl⟩

theorem ok_self (inp : Node) : Ok inp inp := by
  intro l hl
  exact ⟨fun a ha => mem_allAttrs.mpr ⟨l, hl, ha⟩, fun ty hty => ⟨l, hl, hty⟩⟩

/-- A label without attributes and annotation. -/
theorem okLabel_plain {inp : Node} {k : Kind} (h : annotationOf (k, []) = none) :
    OkLabel inp (k, []) := ⟨by simp, by simp [h]⟩

theorem okLabel_attrs {inp : Node} {k k' : Kind} {as as' : List Attr}
    (h : OkLabel inp (k, as)) (hs : ∀ a ∈ as', a ∈ as)
    (hk : annotationOf (k', as') = none) : OkLabel inp (k', as') :=
  ⟨fun a ha => h.1 a (hs a ha), by simp [hk]⟩

theorem annotationOf_attrs (k : Kind) (as as' : List Attr) :
    annotationOf (k, as) = annotationOf (k, as') := by
  cases k <;> try rfl
  rename_i p; cases p <;> rfl

/-- The enums of a tree come from `old` or were generated. -/
def Gen (env : Env) (toks : List Tok) (inp : Node) (old : List GenEnum) (e : GenEnum) : Prop :=
  e ∈ old ∨ WellFormed e ∧
    ∃ args ts, e.derives = args ++ ts ∧ Requested toks inp args ∧ Inferred env.typeAnalysis inp args ts

theorem enums_mk (k : Kind) (as : List Attr) (ks : List Node) (e : GenEnum) :
    e ∈ enums (.mk k as ks) ↔ enumOf (k, as) = some e ∨ ∃ c ∈ ks, e ∈ enums c := by
  simp only [enums, labels_mk, List.filterMap_cons]
  cases h : enumOf (k, as) with
  | none =>
    simp only [reduceCtorEq, false_or, List.mem_filterMap, mem_labelsL]
    constructor
    · rintro ⟨l, ⟨c, hc, hl⟩, h⟩; exact ⟨c, hc, l, hl, h⟩
    · rintro ⟨c, hc, l, hl, h⟩; exact ⟨l, ⟨c, hc, hl⟩, h⟩
  | some x =>
    simp only [List.mem_cons, Option.some.injEq, List.mem_filterMap, mem_labelsL, eq_comm]
    constructor
    · rintro (h | ⟨l, ⟨c, hc, hl⟩, h⟩)
      · exact .inl h
      · exact .inr ⟨c, hc, l, hl, h⟩
    · rintro (h | ⟨c, hc, l, hl, h⟩)
      · exact .inl h
      · exact .inr ⟨l, ⟨c, hc, hl⟩, h⟩

theorem enumOf_attrs (k : Kind) (as as' : List Attr) : enumOf (k, as) = enumOf (k, as') := by
  cases k <;> try rfl
  rename_i i; cases i <;> rfl

theorem ok_findRemove {inp n n' : Node} {s : String} {a : Attr}
    (h : n.findRemoveAttr s = some (a, n')) (ho : Ok inp n) :
    Ok inp n' ∧ a ∈ allAttrs inp ∧ enums n' = enums n ∧ a.path = ⟨false, [⟨s, none⟩]⟩ := by
  obtain ⟨_, h3, _, l1, l2, h1, h2⟩ := Node.findRemoveAttr_some h
  cases n with
  | mk k as ks =>
    simp only [Node.kind, Node.kids, Node.rawAttrs] at h1 h2
    subst h1 h2
    rw [ok_mk] at ho
    refine ⟨ok_mk.mpr ⟨⟨fun x hx => ho.1.1 x ?_, fun ty hty => ho.1.2 ty ?_⟩, ho.2⟩, ?_, ?_, ?_⟩
    · simp only [List.mem_append] at hx
      simp only [List.mem_append, List.mem_cons]
      rcases hx with hx | hx
      · exact .inl hx
      · exact .inr (.inr hx)
    · rw [annotationOf_attrs k _ (l1 ++ l2)]; exact hty
    · exact ho.1.1 a (by simp)
    · simp [enums, enumOf_attrs k (l1 ++ a :: l2) (l1 ++ l2), List.filterMap_cons]
    · obtain ⟨p, f⟩ := a
      obtain ⟨lead, segs⟩ := p
      simp only [Attr.is, Path.isIdent] at h3
      split at h3
      · simp only [beq_iff_eq] at h3
        rw [h3]
      · cases h3

theorem annotation_eq {n : Node} : n.annotation = annotationOf (n.kind, n.rawAttrs) := by
  cases n with
  | mk k as ks =>
    cases k <;> try rfl
    rename_i p; cases p <;> rfl

theorem head_label (n : Node) : (n.kind, n.rawAttrs) ∈ labels n := by
  cases n; simp [Node.kind, Node.rawAttrs]

theorem src_new {env : Env} {toks ts : List Tok} {inp : Node} {h : Nat} {root : Bool}
    {ms : List String} {d : List Err} {ch : Cx} (hn : Cx.new h ts root ms d = .ok ch)
    (ht : ts = toks ∨ ∃ a ∈ allAttrs inp, a.path = ⟨false, [⟨"auto_enum", none⟩]⟩ ∧
      (a.form = .list ts ∨ a.form = .path ∧ ts = [])) : Src env toks inp ch := by
  obtain ⟨m, h1, h2, _⟩ := new_args hn
  have hf := new_fresh hn
  exact ⟨⟨h, h2⟩, by rw [hf.variants]; rfl, ⟨ts, m, (parseArgs_iff _ _ _).mp h1, ht⟩,
    .inl hf.traits⟩

theorem gen_build {env : Env} {toks : List Tok} {inp : Node} {old : List GenEnum} {cx : Cx}
    (hs : Src env toks inp cx) (h2 : 2 ≤ cx.variants.length) {e : GenEnum}
    (he : e ∈ enums cx.buildEnum) : Gen env toks inp old e := by
  simp only [Cx.buildEnum, enums_mk, enumOf, Option.some.injEq, List.not_mem_nil, false_and,
    exists_false, or_false] at he
  subst he
  have hv := hs.variants
  obtain ⟨h, hh⟩ := hs.ident
  refine .inr ⟨⟨⟨h, hh⟩, cx.variants.length, h2, hv, ?_⟩, _, _, rfl, hs.args, hs.traits⟩
  exact congrArg (List.map fun v => (v, v)) hv

theorem ok_buildEnum {inp : Node} {cx : Cx} : Ok inp cx.buildEnum :=
  ok_mk.mpr ⟨okLabel_plain rfl, by simp⟩

theorem ok_pathE {inp : Node} {p : Path} : Ok inp (pathE p) :=
  ok_mk.mpr ⟨okLabel_plain rfl, by simp⟩

theorem ok_call {inp : Node} {as : List Attr} {p : Path} {e : Node}
    (ha : ∀ a ∈ as, a ∈ allAttrs inp) (he : Ok inp e) : Ok inp (exprCall as p e) := by
  refine ok_mk.mpr ⟨⟨ha, by simp [annotationOf]⟩, ?_⟩
  simp [ok_pathE, he]

theorem enums_call (as : List Attr) (p : Path) (e : Node) : enums (exprCall as p e) = enums e := by
  simp [exprCall, pathE, enums, enumOf, List.filterMap_cons]

theorem enums_sub {k : Kind} {as : List Attr} {ks : List Node} {c : Node} (h : c ∈ ks) :
    ∀ e ∈ enums c, e ∈ enums (.mk k as ks) := fun _ he => (enums_mk _ _ _ _).mpr (.inr ⟨c, h, he⟩)

/-- Attributes and annotations are only deleted. -/
theorem T.ok {env : Env} {b : Bool} {cx cx' : Cx} {n n' : Node} {inp : Node}
    (h : T env b cx n cx' n') (ho : Ok inp n) : Ok inp n' := by
  induction h with
  | refl => exact ho
  | trans h1 h2 ih1 ih2 => exact ih2 (ih1 ho)
  | book hb => exact ho
  | kid hk hi h1 ih =>
    rename_i m' m cx cx' k as pre post
    rw [ok_mk] at ho
    refine ok_mk.mpr ⟨ho.1, ?_⟩
    intro c hc
    simp only [List.mem_append, List.mem_cons] at hc
    rcases hc with hc | rfl | hc
    · exact ho.2 c (by simp [hc])
    · exact ih (ho.2 m (by simp))
    · exact ho.2 c (by simp [hc])
  | wrapVal _ _ =>
    rw [ok_mk] at ho
    refine ok_mk.mpr ⟨ho.1, ?_⟩
    intro c hc
    rcases List.mem_cons.mp hc with rfl | hc
    · exact ok_call (by simp) (ho.2 _ (by simp))
    · exact ho.2 c (by simp [hc])
  | wrapArm _ _ =>
    rw [ok_mk] at ho
    refine ok_mk.mpr ⟨ho.1, ?_⟩
    intro c hc
    simp only [List.mem_append, List.mem_singleton] at hc
    rcases hc with hc | rfl
    · exact ho.2 c (by simp [hc])
    · exact ok_call (by simp) (ho.2 _ (by simp))
  | wrapBlock hv hk =>
    rw [ok_mk] at ho
    refine ok_mk.mpr ⟨ho.1, ?_⟩
    intro c hc
    simp only [List.mem_singleton] at hc
    subst hc
    refine ok_mk.mpr ⟨okLabel_plain rfl, ?_⟩
    intro c hc
    simp only [List.mem_singleton] at hc
    subst hc
    exact ok_call (by simp) (ok_mk.mpr ⟨okLabel_plain rfl, ho.2⟩)
  | fill hv hk =>
    rw [ok_mk] at ho
    refine ok_mk.mpr ⟨ho.1, ?_⟩
    intro c hc
    simp only [List.mem_singleton] at hc
    subst hc
    exact ok_call (by simp) (ok_mk.mpr ⟨okLabel_plain rfl, by simp⟩)
  | marker =>
    rw [ok_mk] at ho
    exact ok_call ho.1.1 (ho.2 _ (by simp))
  | tryOp hm hl =>
    rw [ok_mk] at ho
    refine ok_mk.mpr ⟨⟨ho.1.1, by simp [annotationOf]⟩, ?_⟩
    intro c hc
    simp only [List.mem_cons, tryArms, List.not_mem_nil, or_false] at hc
    rcases hc with rfl | rfl | rfl
    · exact ho.2 _ (by simp)
    · exact ok_mk.mpr ⟨okLabel_plain rfl, by simp [ok_pathE]⟩
    · refine ok_mk.mpr ⟨okLabel_plain rfl, ?_⟩
      intro c hc; simp only [List.mem_singleton] at hc; subst hc
      refine ok_mk.mpr ⟨okLabel_plain rfl, ?_⟩
      intro c hc; simp only [List.mem_singleton] at hc; subst hc
      refine ok_mk.mpr ⟨okLabel_plain rfl, ?_⟩
      intro c hc; simp only [List.mem_singleton] at hc; subst hc
      refine ok_mk.mpr ⟨okLabel_plain rfl, ?_⟩
      intro c hc; simp only [List.mem_singleton] at hc; subst hc
      refine ok_mk.mpr ⟨okLabel_plain rfl, ?_⟩
      intro c hc
      simp only [List.mem_cons, List.not_mem_nil, or_false] at hc
      rcases hc with rfl | rfl
      · exact ok_pathE
      · exact ok_call (by simp) ok_pathE
  | dropAttr _ hf => exact (ok_findRemove hf ho).1
  | unmark _ _ => exact (ok_mk.mp ho).2 _ (by simp)
  | badMark => exact ok_mk.mpr ⟨okLabel_plain rfl, by simp⟩
  | dropRec hf => exact (ok_findRemove hf ho).1
  | child _ hf hform hnew h1 h2 heq ih1 ih2 =>
    have hb := join_core heq
    exact ih2 (ih1 (ok_findRemove hf ho).1)
  | exPlain _ _ ih => exact ih ho
  | exErr _ _ ih => exact ih ho
  | exTwo _ _ _ ih => exact ih ho
  | exExpr _ h2 ih =>
    refine ok_mk.mpr ⟨okLabel_plain rfl, ?_⟩
    intro c hc
    simp only [List.mem_cons, List.not_mem_nil, or_false] at hc
    rcases hc with rfl | rfl
    · exact ok_buildEnum
    · exact ok_mk.mpr ⟨okLabel_plain rfl, by simpa using ih ho⟩
  | exKid hk h1 ih =>
    rw [ok_mk] at ho
    refine ok_mk.mpr ⟨ho.1, ?_⟩
    intro c hc
    rcases List.mem_cons.mp hc with rfl | hc
    · exact ih (ho.2 _ (by simp))
    · exact ho.2 c (by simp [hc])
  | exPat hp h1 ih =>
    rw [ok_mk] at ho
    refine ih (ok_mk.mpr ⟨⟨ho.1.1, ?_⟩, ho.2⟩)
    rcases hp with rfl | ⟨_, s, ty, rfl, rfl⟩
    · exact ho.1.2
    · simp [annotationOf]
  | exFn h1 h2 ih =>
    have a2 := ok_mk.mp (ih ho)
    have a4 := ok_mk.mp (a2.2 _ (List.mem_singleton.mpr rfl))
    refine ok_mk.mpr ⟨a2.1, ?_⟩
    intro c hc
    simp only [List.mem_singleton] at hc
    subst hc
    refine ok_mk.mpr ⟨a4.1, ?_⟩
    intro c hc
    rcases List.mem_cons.mp hc with rfl | hc
    · exact ok_buildEnum
    · exact a4.2 c hc
  | exSetup hset h1 ih => exact ih ho

theorem T.enums {env : Env} {b : Bool} {cx cx' : Cx} {n n' : Node} {toks : List Tok} {inp : Node}
    (h : T env b cx n cx' n') (he : cx'.errs = []) (hs : Src env toks inp cx) (ho : Ok inp n) :
    (b = false → Src env toks inp cx') ∧ Ok inp n' ∧
      ∀ e ∈ enums n', Gen env toks inp (enums n) e := by
  induction h with
  | refl => exact ⟨fun _ => hs, ho, fun e h => .inl h⟩
  | trans h1 h2 ih1 ih2 =>
    obtain ⟨a1, a2, a3⟩ := ih1 (errs_nil_of_prefix h2.errs_mono he) hs ho
    obtain ⟨b1, b2, b3⟩ := ih2 he (a1 rfl) a2
    refine ⟨b1, b2, fun e h => ?_⟩
    rcases b3 e h with h | h
    · exact a3 e h
    · exact .inr h
  | book hb => exact ⟨fun _ => hs.book hb.toCore, ho, fun e h => .inl h⟩
  | kid hk hi h1 ih =>
    rename_i m' m cx cx' k as pre post
    rw [ok_mk] at ho
    obtain ⟨a1, a2, a3⟩ := ih he hs (ho.2 m (by simp))
    refine ⟨a1, ok_mk.mpr ⟨ho.1, ?_⟩, ?_⟩
    · intro c hc
      simp only [List.mem_append, List.mem_cons] at hc
      rcases hc with hc | rfl | hc
      · exact ho.2 c (by simp [hc])
      · exact a2
      · exact ho.2 c (by simp [hc])
    · intro e hme
      rw [enums_mk] at hme
      rcases hme with h | ⟨c, hc, h⟩
      · exact .inl ((enums_mk _ _ _ _).mpr (.inl h))
      · simp only [List.mem_append, List.mem_cons] at hc
        rcases hc with hc | rfl | hc
        · exact .inl (enums_sub (by simp [hc]) e h)
        · rcases a3 e h with h | h
          · exact .inl (enums_sub (c := m) (by simp) e h)
          · exact .inr h
        · exact .inl (enums_sub (by simp [hc]) e h)
  | wrapVal hv hk =>
    refine ⟨fun _ => hs.next _ _, (T.wrapVal (env := env) hv hk).ok ho, fun e h => .inl ?_⟩
    simp only [enums_mk, List.mem_cons, exists_eq_or_imp, Cx.nextExpr, Cx.nextExprAttrs,
      enums_call] at h ⊢
    exact h
  | wrapArm hv hg =>
    refine ⟨fun _ => hs.next _ _, (T.wrapArm (env := env) hv hg).ok ho, fun e h => .inl ?_⟩
    simp only [enums_mk, List.mem_append, List.mem_singleton, or_and_right, exists_or,
      exists_eq_left, Cx.nextExpr, Cx.nextExprAttrs, enums_call] at h ⊢
    exact h
  | wrapBlock hv hk =>
    rename_i k cx as ss
    rw [ok_mk] at ho
    refine ⟨fun _ => hs.next _ _, ok_mk.mpr ⟨ho.1, ?_⟩, fun e h => .inl ?_⟩
    · intro c hc
      simp only [List.mem_singleton] at hc
      subst hc
      refine ok_mk.mpr ⟨okLabel_plain rfl, ?_⟩
      intro c hc
      simp only [List.mem_singleton] at hc
      subst hc
      exact ok_call (by simp) (ok_mk.mpr ⟨okLabel_plain rfl, ho.2⟩)
    · rw [enums_mk] at h ⊢
      simp only [reduceCtorEq, false_or, List.mem_singleton, exists_eq_left, tailS,
        enums_mk, Cx.nextExpr, Cx.nextExprAttrs, enums_call, enumOf, exprBlock] at h ⊢
      exact h
  | fill hv hk =>
    rename_i k cx as
    rw [ok_mk] at ho
    refine ⟨fun _ => hs.next _ _, ok_mk.mpr ⟨ho.1, ?_⟩, fun e h => .inl ?_⟩
    · intro c hc
      simp only [List.mem_singleton] at hc
      subst hc
      exact ok_call (by simp) (ok_mk.mpr ⟨okLabel_plain rfl, by simp⟩)
    · rw [enums_mk] at h ⊢
      simp only [reduceCtorEq, false_or, List.mem_singleton, exists_eq_left,
        enums_mk, Cx.nextExpr, Cx.nextExprAttrs, enums_call, enumOf, unitE] at h ⊢
      exact h
  | marker =>
    rw [ok_mk] at ho
    refine ⟨fun _ => hs.next _ _, ok_call ho.1.1 (ho.2 _ (by simp)), fun e h => .inl ?_⟩
    rw [Cx.nextExprAttrs, enums_call] at h
    exact enums_sub (by simp) e h
  | tryOp hm hl =>
    rename_i cx as x
    rw [ok_mk] at ho
    refine ⟨fun _ => hs.next _ _, ok_mk.mpr ⟨⟨ho.1.1, by simp [annotationOf]⟩, ?_⟩,
      fun e h => .inl ?_⟩
    · intro c hc
      simp only [List.mem_cons, tryArms, List.not_mem_nil, or_false] at hc
      rcases hc with rfl | rfl | rfl
      · exact ho.2 _ (by simp)
      · exact ok_mk.mpr ⟨okLabel_plain rfl, by simp [ok_pathE]⟩
      · refine ok_mk.mpr ⟨okLabel_plain rfl, ?_⟩
        intro c hc; simp only [List.mem_singleton] at hc; subst hc
        refine ok_mk.mpr ⟨okLabel_plain rfl, ?_⟩
        intro c hc; simp only [List.mem_singleton] at hc; subst hc
        refine ok_mk.mpr ⟨okLabel_plain rfl, ?_⟩
        intro c hc; simp only [List.mem_singleton] at hc; subst hc
        refine ok_mk.mpr ⟨okLabel_plain rfl, ?_⟩
        intro c hc; simp only [List.mem_singleton] at hc; subst hc
        refine ok_mk.mpr ⟨okLabel_plain rfl, ?_⟩
        intro c hc
        simp only [List.mem_cons, List.not_mem_nil, or_false] at hc
        rcases hc with rfl | rfl
        · exact ok_pathE
        · exact ok_call (by simp) ok_pathE
    · rw [enums_mk] at h
      rcases h with h | ⟨c, hc, h⟩
      · simp [enumOf] at h
      · simp only [List.mem_cons, tryArms, List.not_mem_nil, or_false] at hc
        rcases hc with rfl | rfl | rfl
        · exact enums_sub (by simp) e h
        · simp [Spec.enums, pathE, enumOf, List.filterMap_cons] at h
        · simp [Spec.enums, pathE, enumOf, List.filterMap_cons, exprBlock, semiS, Cx.nextExpr,
            Cx.nextExprAttrs, exprCall] at h
  | dropAttr _ hf =>
    obtain ⟨h1, _, h2, _⟩ := ok_findRemove hf ho
    exact ⟨fun _ => hs, h1, fun e h => .inl (h2 ▸ h)⟩
  | unmark _ hne => exact absurd he hne
  | badMark => simp [Cx.error] at he
  | dropRec => simp [Cx.error] at he
  | child _ hf hform hnew h1 h2 heq ih1 ih2 =>
    have hb := join_core heq
    obtain ⟨e2, ech⟩ := join_nil heq he
    obtain ⟨o1, o2, o3, o4⟩ := ok_findRemove hf ho
    obtain ⟨a1, a2, a3⟩ := ih1 e2 hs o1
    have hsrc := src_new (env := env) (toks := toks) hnew (.inr ⟨_, o2, o4, hform⟩)
    obtain ⟨b1, b2, b3⟩ := ih2 ech hsrc a2
    refine ⟨fun _ => (a1 rfl).book hb, b2, fun e h => ?_⟩
    rcases b3 e h with h | h
    · rw [← o3]; exact a3 e h
    · exact .inr h
  | exPlain _ _ ih =>
    obtain ⟨_, a2, a3⟩ := ih he hs ho
    exact ⟨by simp, a2, a3⟩
  | exErr _ hne _ => exact absurd he hne
  | exTwo => simp [Cx.error] at he
  | exExpr _ h2 ih =>
    obtain ⟨a1, a2, a3⟩ := ih he hs ho
    refine ⟨by simp, ?_, ?_⟩
    · refine ok_mk.mpr ⟨okLabel_plain rfl, ?_⟩
      intro c hc
      simp only [List.mem_cons, List.not_mem_nil, or_false] at hc
      rcases hc with rfl | rfl
      · exact ok_buildEnum
      · exact ok_mk.mpr ⟨okLabel_plain rfl, by simpa using a2⟩
    · intro e h
      simp only [buildExpr, exprBlock, enums_mk, enumOf, reduceCtorEq, List.mem_cons,
        List.not_mem_nil, or_false, false_or, exists_eq_or_imp, exists_eq_left, tailS] at h
      rcases h with h | h
      · exact gen_build (a1 rfl) h2 h
      · exact a3 e h
  | exKid hk h1 ih =>
    rename_i k cx x cx' x' as els
    rw [ok_mk] at ho
    obtain ⟨_, a2, a3⟩ := ih he hs (ho.2 x (by simp))
    refine ⟨by simp, ok_mk.mpr ⟨ho.1, ?_⟩, ?_⟩
    · intro c hc
      rcases List.mem_cons.mp hc with rfl | hc
      · exact a2
      · exact ho.2 c (by simp [hc])
    · intro e hme
      rw [enums_mk] at hme
      rcases hme with h | ⟨c, hc, h⟩
      · exact .inl ((enums_mk _ _ _ _).mpr (.inl h))
      · rcases List.mem_cons.mp hc with rfl | hc
        · rcases a3 e h with h | h
          · exact .inl (enums_sub (c := x) (by simp) e h)
          · exact .inr h
        · exact .inl (enums_sub (by simp [hc]) e h)
  | exPat hp h1 ih =>
    rename_i p' p cx as ks cx' m'
    rw [ok_mk] at ho
    have ho' : Ok inp (.mk (.sLocal p') as ks) := by
      refine ok_mk.mpr ⟨⟨ho.1.1, ?_⟩, ho.2⟩
      rcases hp with rfl | ⟨_, s, ty, rfl, rfl⟩
      · exact ho.1.2
      · simp [annotationOf]
    obtain ⟨_, a2, a3⟩ := ih he hs ho'
    refine ⟨by simp, a2, fun e h => ?_⟩
    rcases a3 e h with h | h
    · exact .inl (by simpa [enums_mk, enumOf] using h)
    · exact .inr h
  | exFn h1 h2 ih =>
    rename_i cx m cx' name ret as asb ss
    obtain ⟨a1, a2, a3⟩ := ih he hs ho
    rw [ok_mk] at a2
    have a4 := ok_mk.mp (a2.2 _ (List.mem_singleton.mpr rfl))
    refine ⟨by simp, ok_mk.mpr ⟨a2.1, ?_⟩, ?_⟩
    · intro c hc
      simp only [List.mem_singleton] at hc
      subst hc
      refine ok_mk.mpr ⟨a4.1, ?_⟩
      intro c hc
      rcases List.mem_cons.mp hc with rfl | hc
      · exact ok_buildEnum
      · exact a4.2 c hc
    · intro e h
      simp only [enums_mk, enumOf, reduceCtorEq, List.mem_cons,
        List.not_mem_nil, or_false, false_or, exists_eq_or_imp, exists_eq_left] at h
      rcases h with h | h
      · exact gen_build (a1 rfl) h2 h
      · refine a3 e ?_
        simp only [enums_mk, enumOf, reduceCtorEq, List.mem_cons,
          List.not_mem_nil, or_false, false_or, exists_eq_left]
        exact h
  | exSetup hset h1 ih =>
    rename_i m cx cx0 cx' m'
    have hs0 : Src env toks inp cx0 := by
      refine ⟨by rw [hset.ident]; exact hs.ident, by rw [hset.variants]; exact hs.variants,
        by rw [hset.args]; exact hs.args, ?_⟩
      rw [hset.args]
      rcases hset.traits with h | ⟨hta, _, ty, hty, h⟩
      · rw [h]; exact hs.traits
      · rw [h, collectTy_eq]
        rw [annotation_eq] at hty
        obtain ⟨l, hl, hl2⟩ := (ho _ (head_label m)).2 ty hty
        exact .inr ⟨hta, l, hl, ty, hl2, rfl⟩
    exact ih he hs0 ho

end AutoEnums
