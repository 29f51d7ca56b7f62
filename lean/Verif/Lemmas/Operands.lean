import Verif.Spec.Operands
import Verif.Lemmas.Visible
import Verif.Lemmas.Mono

/-! # Lemmas: the expansion does not look into operands (for C70) -/

set_option linter.unusedSectionVars false
set_option linter.unusedSimpArgs false

namespace AutoEnums

open Spec

namespace Fill

/-! ## Code in which there is nothing to do -/

theorem noHelp_any {as : List Attr} (h : noHelp as = true) {s : String}
    (hs : s ∈ [NAME, NESTED, NEVER, "rec"]) : anyAttr as s = false := by
  unfold anyAttr
  rw [List.any_eq_false]
  intro a ha
  have := List.all_eq_true.mp h a ha
  simp only [helper, named_iff, Bool.and_eq_true, Bool.not_eq_true', Bool.or_eq_false_iff] at this
  simp only [List.mem_cons, List.not_mem_nil, or_false, NAME, NESTED, NEVER] at hs
  rcases hs with rfl | rfl | rfl | rfl <;> simp [this]

theorem empty_any {as : List Attr} {s : String} (h : anyAttr as s = false) : anyEmptyAttr as s = false := by
  unfold anyAttr at h
  unfold anyEmptyAttr
  rw [List.any_eq_false] at h ⊢
  intro a ha
  have := h a ha
  simp_all [Attr.isEmpty]

theorem findRemove_any {as : List Attr} {s : String} (h : anyAttr as s = false) :
    findRemove (fun a : Attr => a.is s) as = none := by
  induction as with
  | nil => rfl
  | cons a as ih =>
    simp only [anyAttr, List.any_cons, Bool.or_eq_false_iff] at h
    rw [findRemove, if_neg (by simp [h.1]), ih h.2]

theorem still_mk {cl : Bool} {k : Kind} {as : List Attr} {ks : List Node} (h : still cl (.mk k as ks) = true) :
    noHelp as = true ∧ stillHere cl k = true ∧ stillL (cl || closes k) ks = true := by
  rw [still, Bool.and_eq_true, Bool.and_eq_true] at h
  exact ⟨h.1.1, h.1.2, h.2⟩

theorem stillL_mem {cl : Bool} : ∀ {l : List Node}, stillL cl l = true → ∀ n ∈ l, still cl n = true := by
  intro l
  induction l with
  | nil => intro _ n hn; cases hn
  | cons a l ih =>
    intro h n hn
    rw [stillL, Bool.and_eq_true] at h
    cases hn with
    | head => exact h.1
    | tail _ hn => exact ih h.2 n hn

theorem still_attrs : ∀ {n : Node} {cl : Bool}, still cl n = true → ∀ s ∈ [NAME, NESTED, NEVER, "rec"],
    AutoEnums.anyAttr n.attrs s = false := by
  intro n
  induction n using Node.ind with
  | h k as ks ih =>
    intro cl h s hs
    obtain ⟨h1, _, h3⟩ := still_mk h
    unfold Node.attrs
    split
    · rename_i heq
      cases heq
      exact ih _ (by simp) (stillL_mem h3 _ (by simp)) s hs
    · rename_i heq
      cases heq
      split
      · exact noHelp_any h1 hs
      · rfl

theorem still_anyAttr {n : Node} {cl : Bool} (h : still cl n = true) {s : String}
    (hs : s ∈ [NAME, NESTED, NEVER, "rec"]) : n.anyAttr s = false := still_attrs h s hs

theorem still_remove {n : Node} {cl : Bool} (h : still cl n = true) {s : String}
    (hs : s ∈ [NAME, NESTED, NEVER, "rec"]) : n.findRemoveAttr s = none := by
  obtain ⟨k, as, ks⟩ := n
  unfold Node.findRemoveAttr
  dsimp only
  split
  · rw [findRemove_any (noHelp_any (still_mk h).1 hs)]
  · rfl

theorem still_nested : ∀ {n : Node} {cl : Bool}, still cl n = true → findNested n = false := by
  intro n
  induction n using Node.ind with
  | h k as ks ih =>
    intro cl h
    obtain ⟨h1, _, h3⟩ := still_mk h
    have hN := empty_any (noHelp_any h1 (s := NESTED) (by simp))
    have hL : ∀ l, (∀ n ∈ l, n ∈ ks) → findNestedL l = false := by
      intro l
      induction l with
      | nil => intro _; rfl
      | cons a l ihl =>
        intro hm
        rw [findNestedL, ih a (hm a (by simp)) (stillL_mem h3 a (hm a (by simp))),
          ihl fun n hn => hm n (by simp [hn])]
        rfl
    have hL := hL ks fun _ h => h
    rw [findNested.eq_def]
    dsimp only
    split
    · simp [hN]
    · split <;> simp [hN, hL]

theorem still_loop (label : Option String) : ∀ {n : Node} (nested : Bool) (c : Cx), still false n = true →
    loopVisit label nested c n = (c, n) := by
  intro n
  induction n using Node.ind with
  | h k as ks ih =>
    intro nested c h
    obtain ⟨h1, h2, h3⟩ := still_mk h
    by_cases hcl : closes k = true
    · cases k <;> simp only [closes, Bool.false_eq_true] at hcl
      rw [loopVisit.eq_def]
      simp
    simp only [Bool.not_eq_true] at hcl
    rw [hcl] at h3
    have hL : ∀ (nested : Bool) (l : List Node), (∀ n ∈ l, n ∈ ks) → loopVisitL label nested c l = (c, l) := by
      intro nested l
      induction l with
      | nil => intro _; rfl
      | cons a l ihl =>
        intro hm
        rw [loopVisitL]
        simp only [ih a (hm a (by simp)) nested c (stillL_mem h3 a (hm a (by simp)))]
        rw [ihl fun n hn => hm n (by simp [hn])]
    have hL := fun nested => hL nested ks fun _ h => h
    rw [loopVisit.eq_def]
    dsimp only
    split
    · rfl
    · cases k <;> simp only [hL, ite_self]
      case eBreak l => simp [stillHere] at h2

theorem still_loopL (label : Option String) (nested : Bool) (c : Cx) {l : List Node} (h : stillL false l = true) :
    loopVisitL label nested c l = (c, l) := by
  induction l with
  | nil => rfl
  | cons a l ih =>
    rw [stillL, Bool.and_eq_true] at h
    rw [loopVisitL, still_loop label nested c h.1]
    simp only [ih h.2]

theorem still_count (c : Cx) : ∀ {n : Node} (cl : Bool), still cl n = true → fnCount c cl n = {} := by
  intro n
  induction n using Node.ind with
  | h k as ks ih =>
    intro cl h
    obtain ⟨h1, h2, h3⟩ := still_mk h
    have hsc : (Scope.check { closure := cl } k).closure = (cl || closes k) := by
      cases k <;> simp [Scope.check, closes]
    have hL : ∀ l : List Node, (∀ n ∈ l, n ∈ ks) → fnCountL c (cl || closes k) l = {} := by
      intro l
      induction l with
      | nil => intro _; rfl
      | cons a l ihl =>
        intro hm
        rw [fnCountL, ih a (hm a (by simp)) _ (stillL_mem h3 a (hm a (by simp))),
          ihl fun n hn => hm n (by simp [hn])]
        rfl
    rw [fnCount.eq_def]
    dsimp only
    rw [hsc, hL ks fun _ h => h, ite_self]
    have : fnCountHere c (cl || closes k) as k ks = {} := by
      unfold fnCountHere
      cases k <;> try rfl
      all_goals
        simp only [stillHere] at h2
        subst h2
        match ks with
        | [] => rfl
        | _ :: _ => rfl
    rw [this]
    rfl

theorem still_countL (c : Cx) (cl : Bool) {l : List Node} (h : stillL cl l = true) : fnCountL c cl l = {} := by
  induction l with
  | nil => rfl
  | cons a l ih =>
    rw [stillL, Bool.and_eq_true] at h
    rw [fnCountL, still_count c cl h.1, ih h.2]
    rfl

/-! ## Operands -/

/-- What the proofs use of an operand's kind. -/
def plainKind : Kind → Bool
  | .eMethodCall _ | .eParen | .ePath _ _ | .eCall
  | .eArray | .eAssign | .eAsync | .eAwait | .eBinary _ | .eCast _ | .eConst
  | .eField _ | .eForLoop _ _ | .eGroup | .eIndex | .eInfer | .eLet _ | .eLit _
  | .eRange | .eReference | .eRepeat | .eStruct _ | .eTuple | .eUnary _
  | .eWhile _ | .eYield => true
  | _ => false

theorem operand_facts : ∀ {n : Node}, operand n = true →
    plainKind n.kind = true ∧ n.rawAttrs = [] ∧ stillL false n.kids = true := by
  intro n
  induction n using Node.ind with
  | h k as ks ih =>
    intro h
    rw [operand.eq_def] at h
    simp only [Bool.and_eq_true, List.isEmpty_iff] at h
    obtain ⟨rfl, h⟩ := h
    refine ⟨?_, rfl, ?_⟩
    · cases k <;> first | rfl | (simp at h; done)
    · simp only [Node.kids]
      have hrec : ∀ e ∈ ks, operand e = true → still false e = true := by
        intro e he ho
        obtain ⟨k', as', ks'⟩ := e
        obtain ⟨e1, e2, e3⟩ := ih _ he ho
        simp only [Node.kind, Node.rawAttrs, Node.kids] at e1 e2 e3
        subst e2
        rw [still]
        cases k' <;> first | (simp [plainKind] at e1; done) | simp [noHelp, stillHere, closes, e3]
      split at h
      · simp only [Bool.and_eq_true] at h
        rw [stillL, hrec _ (by simp) h.1, h.2]; rfl
      · rw [stillL, hrec _ (by simp) h]; rfl
      · simp only [Bool.and_eq_true] at h; exact h.2
      · simp only [Bool.and_eq_true] at h; exact h.2
      all_goals first | exact h | cases h

theorem operand_still {n : Node} (h : operand n = true) : still false n = true := by
  obtain ⟨k, as, ks⟩ := n
  obtain ⟨e1, e2, e3⟩ := operand_facts h
  simp only [Node.kind, Node.rawAttrs, Node.kids] at e1 e2 e3
  subst e2
  rw [still]
  cases k <;> first | (simp [plainKind] at e1; done) | simp [noHelp, stillHere, closes, e3]

theorem pathEq_last {p : Path} {crates expected : List String} (hne : expected ≠ [])
    (h : pathEq p crates expected = true) :
    lastName p = expected.getLast? := by
  unfold pathEq at h
  unfold lastName
  rw [← List.getLast?_map]
  generalize p.segs.map (·.ident) = ids at h
  simp only at h
  split at h
  · rename_i hc
    match ids, hc with
    | [a], hc => exact hc.2
  · split at h
    · match ids, h with
      | c :: rest, h =>
        rename_i hl
        simp only [Bool.and_eq_true, beq_iff_eq] at h
        obtain ⟨_, rfl⟩ := h
        cases rest with
        | nil => exact absurd rfl hne
        | cons a l => simp [List.getLast?_cons_cons]
    · cases h

theorem notErr_path {p : Path} {q : Bool} {as : List Attr} {ks : List Node} (h : notErr (.mk (.ePath q p) as ks) = true) :
    pathEq p ["std", "core"] ["result", "Result", "Err"] = false := by
  cases he : pathEq p ["std", "core"] ["result", "Result", "Err"] with
  | false => rfl
  | true =>
    have := pathEq_last (by simp) he
    simp [notErr] at h
    exact absurd this h

/-- The operand with attributes: what is looked at is the same as for a literal. -/
theorem operand_noneErr {k : Kind} {as as' : List Attr} {ks : List Node} (h : operand (.mk k as' ks) = true) :
    isNoneOrErr (.mk k as ks) = false := by
  rw [operand.eq_def] at h
  simp only [Bool.and_eq_true] at h
  have h := h.2
  unfold isNoneOrErr
  split
  · rename_i heq
    cases heq
    simp only [Bool.and_eq_true, decide_eq_true_eq] at h
    rename_i p _
    cases he : pathEq p ["std", "core"] ["option", "Option", "None"] with
    | false => rfl
    | true => exact absurd (pathEq_last (by simp) he) h.1.1
  · rename_i heq
    cases heq
    simp only [Bool.and_eq_true] at h
    exact notErr_path h.1
  · rfl

theorem operand_unreachable (c : Cx) : ∀ {k : Kind} {as as' : List Attr} {ks : List Node}, operand (.mk k as' ks) = true →
    isUnreachable c (.mk k as ks) = (anyEmptyAttr as NEVER || anyAttr as NAME) := by
  have key : ∀ n : Node, operand n = true → ∀ as, isUnreachable c (.mk n.kind as n.kids) =
      (anyEmptyAttr as NEVER || anyAttr as NAME) := by
    intro n
    induction n using Node.ind with
    | h k as' ks ih =>
      intro h as
      obtain ⟨e1, _, _⟩ := operand_facts h
      simp only [Node.kind, Node.kids] at e1 ⊢
      have hrec : ∀ e ∈ ks, operand e = true → isUnreachable c e = false := by
        intro e he ho
        obtain ⟨k', as', ks'⟩ := e
        have := ih _ he ho []
        obtain ⟨_, e2, _⟩ := operand_facts ho
        simp only [Node.kind, Node.kids, Node.rawAttrs] at this e2
        subst e2
        rw [this]
        rfl
      rw [isUnreachable.eq_def]
      dsimp only
      have ha : k.hasAttrs = true := by cases k <;> first | rfl | (simp [plainKind] at e1; done)
      rw [ha, Bool.true_and]
      rw [operand.eq_def] at h
      simp only [Bool.and_eq_true] at h
      have h := h.2
      cases k <;> first | (simp [plainKind] at e1; done) | (simp only [Bool.or_false]; done) | skip
      case eMethodCall m =>
        match ks with
        | [] => simp
        | r :: args =>
          simp only [Bool.and_eq_true] at h
          simp only [hrec r (by simp) h.1, Bool.or_false]
      case eParen =>
        match ks with
        | [] => simp
        | [e] => simp only [hrec e (by simp) h, Bool.or_false]
        | _ :: _ :: _ => simp
  intro k as as' ks h
  exact key _ h as

theorem operand_child (c : Cx) {n : Node} (h : operand n = true) (as : List Attr) :
    childExpr c (.mk n.kind as n.kids) = (c, .mk n.kind as n.kids) := by
  induction n using Node.ind generalizing as with
  | h k as' ks ih =>
    obtain ⟨e1, _, _⟩ := operand_facts h
    simp only [Node.kind, Node.kids] at e1 ⊢
    have hrec : ∀ e ∈ ks, operand e = true → childExpr c e = (c, e) := by
      intro e he ho
      obtain ⟨k', as', ks'⟩ := e
      have := ih _ he ho []
      obtain ⟨_, e2, _⟩ := operand_facts ho
      simp only [Node.kind, Node.kids, Node.rawAttrs] at this e2
      subst e2
      exact this
    rw [operand.eq_def] at h
    simp only [Bool.and_eq_true] at h
    have h := h.2
    rw [childExpr.eq_def]
    dsimp only
    split
    · rfl
    · cases k <;> first | (simp [plainKind] at e1; done) | rfl | skip
      case eMethodCall m =>
        match ks with
        | [] => rfl
        | r :: args =>
          simp only [Bool.and_eq_true] at h
          simp only [hrec r (by simp) h.1]
      case eParen =>
        match ks with
        | [] => rfl
        | [e] => simp only [hrec e (by simp) h]
        | _ :: _ :: _ => rfl

end Fill

end AutoEnums
