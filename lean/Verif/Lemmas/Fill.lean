import Verif.Lemmas.Operands

/-! # Lemmas: replacing operands commutes with the expansion (for C70) -/

set_option linter.unusedSectionVars false
set_option linter.unusedSimpArgs false

namespace AutoEnums

open Spec

namespace Fill

variable {σ : String → Node}

def pair (σ : String → Node) (r : Cx × Node) : Cx × Node := (r.1, fill σ r.2)
def pairL (σ : String → Node) (r : Cx × List Node) : Cx × List Node := (r.1, fillL σ r.2)

def isLit : Kind → Bool
  | .eLit _ => true
  | _ => false

@[simp] theorem fillL_nil : fillL σ [] = [] := by rw [fillL]
@[simp] theorem fillL_cons (n : Node) (ns : List Node) : fillL σ (n :: ns) = fill σ n :: fillL σ ns := by rw [fillL]
theorem fillL_map (l : List Node) : fillL σ l = l.map (fill σ) := by
  induction l with
  | nil => simp
  | cons a l ih => rw [fillL_cons, ih]; rfl
@[simp] theorem fillL_isEmpty (l : List Node) : (fillL σ l).isEmpty = l.isEmpty := by simp [fillL_map]

theorem fill_hole (s : String) (as : List Attr) : fill σ (.mk (.eLit s) as []) = .mk (σ s).kind as (σ s).kids := by
  rw [fill]

theorem fill_mk {k : Kind} (hk : isLit k = false) (as : List Attr) (ks : List Node) :
    fill σ (.mk k as ks) = .mk k as (fillL σ ks) := by
  cases k <;> first | (simp [isLit] at hk; done) | rw [fill]; simp

@[simp] theorem fill_eArray (as : List Attr) (ks : List Node) :
    fill σ (.mk .eArray as ks) = .mk .eArray as (fillL σ ks) := fill_mk rfl as ks
@[simp] theorem fill_eAssign (as : List Attr) (ks : List Node) :
    fill σ (.mk .eAssign as ks) = .mk .eAssign as (fillL σ ks) := fill_mk rfl as ks
@[simp] theorem fill_eAsync (as : List Attr) (ks : List Node) :
    fill σ (.mk .eAsync as ks) = .mk .eAsync as (fillL σ ks) := fill_mk rfl as ks
@[simp] theorem fill_eAwait (as : List Attr) (ks : List Node) :
    fill σ (.mk .eAwait as ks) = .mk .eAwait as (fillL σ ks) := fill_mk rfl as ks
@[simp] theorem fill_eBinary {op} (as : List Attr) (ks : List Node) :
    fill σ (.mk (.eBinary op) as ks) = .mk (.eBinary op) as (fillL σ ks) := fill_mk rfl as ks
@[simp] theorem fill_eBlock {l} (as : List Attr) (ks : List Node) :
    fill σ (.mk (.eBlock l) as ks) = .mk (.eBlock l) as (fillL σ ks) := fill_mk rfl as ks
@[simp] theorem fill_eBreak {l} (as : List Attr) (ks : List Node) :
    fill σ (.mk (.eBreak l) as ks) = .mk (.eBreak l) as (fillL σ ks) := fill_mk rfl as ks
@[simp] theorem fill_eCall (as : List Attr) (ks : List Node) :
    fill σ (.mk .eCall as ks) = .mk .eCall as (fillL σ ks) := fill_mk rfl as ks
@[simp] theorem fill_eCast {t} (as : List Attr) (ks : List Node) :
    fill σ (.mk (.eCast t) as ks) = .mk (.eCast t) as (fillL σ ks) := fill_mk rfl as ks
@[simp] theorem fill_eClosure {i} (as : List Attr) (ks : List Node) :
    fill σ (.mk (.eClosure i) as ks) = .mk (.eClosure i) as (fillL σ ks) := fill_mk rfl as ks
@[simp] theorem fill_eConst (as : List Attr) (ks : List Node) :
    fill σ (.mk .eConst as ks) = .mk .eConst as (fillL σ ks) := fill_mk rfl as ks
@[simp] theorem fill_eContinue {l} (as : List Attr) (ks : List Node) :
    fill σ (.mk (.eContinue l) as ks) = .mk (.eContinue l) as (fillL σ ks) := fill_mk rfl as ks
@[simp] theorem fill_eField {x} (as : List Attr) (ks : List Node) :
    fill σ (.mk (.eField x) as ks) = .mk (.eField x) as (fillL σ ks) := fill_mk rfl as ks
@[simp] theorem fill_eForLoop {l} {p} (as : List Attr) (ks : List Node) :
    fill σ (.mk (.eForLoop l p) as ks) = .mk (.eForLoop l p) as (fillL σ ks) := fill_mk rfl as ks
@[simp] theorem fill_eGroup (as : List Attr) (ks : List Node) :
    fill σ (.mk .eGroup as ks) = .mk .eGroup as (fillL σ ks) := fill_mk rfl as ks
@[simp] theorem fill_eIf (as : List Attr) (ks : List Node) :
    fill σ (.mk .eIf as ks) = .mk .eIf as (fillL σ ks) := fill_mk rfl as ks
@[simp] theorem fill_eIndex (as : List Attr) (ks : List Node) :
    fill σ (.mk .eIndex as ks) = .mk .eIndex as (fillL σ ks) := fill_mk rfl as ks
@[simp] theorem fill_eInfer (as : List Attr) (ks : List Node) :
    fill σ (.mk .eInfer as ks) = .mk .eInfer as (fillL σ ks) := fill_mk rfl as ks
@[simp] theorem fill_eLet {p} (as : List Attr) (ks : List Node) :
    fill σ (.mk (.eLet p) as ks) = .mk (.eLet p) as (fillL σ ks) := fill_mk rfl as ks
@[simp] theorem fill_eLoop {l} (as : List Attr) (ks : List Node) :
    fill σ (.mk (.eLoop l) as ks) = .mk (.eLoop l) as (fillL σ ks) := fill_mk rfl as ks
@[simp] theorem fill_eMacro {p} {t} (as : List Attr) (ks : List Node) :
    fill σ (.mk (.eMacro p t) as ks) = .mk (.eMacro p t) as (fillL σ ks) := fill_mk rfl as ks
@[simp] theorem fill_eMatch (as : List Attr) (ks : List Node) :
    fill σ (.mk .eMatch as ks) = .mk .eMatch as (fillL σ ks) := fill_mk rfl as ks
@[simp] theorem fill_eMethodCall {m} (as : List Attr) (ks : List Node) :
    fill σ (.mk (.eMethodCall m) as ks) = .mk (.eMethodCall m) as (fillL σ ks) := fill_mk rfl as ks
@[simp] theorem fill_eParen (as : List Attr) (ks : List Node) :
    fill σ (.mk .eParen as ks) = .mk .eParen as (fillL σ ks) := fill_mk rfl as ks
@[simp] theorem fill_ePath {q} {p} (as : List Attr) (ks : List Node) :
    fill σ (.mk (.ePath q p) as ks) = .mk (.ePath q p) as (fillL σ ks) := fill_mk rfl as ks
@[simp] theorem fill_eRange (as : List Attr) (ks : List Node) :
    fill σ (.mk .eRange as ks) = .mk .eRange as (fillL σ ks) := fill_mk rfl as ks
@[simp] theorem fill_eReference (as : List Attr) (ks : List Node) :
    fill σ (.mk .eReference as ks) = .mk .eReference as (fillL σ ks) := fill_mk rfl as ks
@[simp] theorem fill_eRepeat (as : List Attr) (ks : List Node) :
    fill σ (.mk .eRepeat as ks) = .mk .eRepeat as (fillL σ ks) := fill_mk rfl as ks
@[simp] theorem fill_eReturn (as : List Attr) (ks : List Node) :
    fill σ (.mk .eReturn as ks) = .mk .eReturn as (fillL σ ks) := fill_mk rfl as ks
@[simp] theorem fill_eStruct {x} (as : List Attr) (ks : List Node) :
    fill σ (.mk (.eStruct x) as ks) = .mk (.eStruct x) as (fillL σ ks) := fill_mk rfl as ks
@[simp] theorem fill_eTry (as : List Attr) (ks : List Node) :
    fill σ (.mk .eTry as ks) = .mk .eTry as (fillL σ ks) := fill_mk rfl as ks
@[simp] theorem fill_eTryBlock (as : List Attr) (ks : List Node) :
    fill σ (.mk .eTryBlock as ks) = .mk .eTryBlock as (fillL σ ks) := fill_mk rfl as ks
@[simp] theorem fill_eTuple (as : List Attr) (ks : List Node) :
    fill σ (.mk .eTuple as ks) = .mk .eTuple as (fillL σ ks) := fill_mk rfl as ks
@[simp] theorem fill_eUnary {op} (as : List Attr) (ks : List Node) :
    fill σ (.mk (.eUnary op) as ks) = .mk (.eUnary op) as (fillL σ ks) := fill_mk rfl as ks
@[simp] theorem fill_eUnsafe (as : List Attr) (ks : List Node) :
    fill σ (.mk .eUnsafe as ks) = .mk .eUnsafe as (fillL σ ks) := fill_mk rfl as ks
@[simp] theorem fill_eWhile {l} (as : List Attr) (ks : List Node) :
    fill σ (.mk (.eWhile l) as ks) = .mk (.eWhile l) as (fillL σ ks) := fill_mk rfl as ks
@[simp] theorem fill_eYield (as : List Attr) (ks : List Node) :
    fill σ (.mk .eYield as ks) = .mk .eYield as (fillL σ ks) := fill_mk rfl as ks
@[simp] theorem fill_eVerbatim {t} (as : List Attr) (ks : List Node) :
    fill σ (.mk (.eVerbatim t) as ks) = .mk (.eVerbatim t) as (fillL σ ks) := fill_mk rfl as ks
@[simp] theorem fill_block (as : List Attr) (ks : List Node) :
    fill σ (.mk .block as ks) = .mk .block as (fillL σ ks) := fill_mk rfl as ks
@[simp] theorem fill_arm {p} (as : List Attr) (ks : List Node) :
    fill σ (.mk (.arm p) as ks) = .mk (.arm p) as (fillL σ ks) := fill_mk rfl as ks
@[simp] theorem fill_sExpr {b} (as : List Attr) (ks : List Node) :
    fill σ (.mk (.sExpr b) as ks) = .mk (.sExpr b) as (fillL σ ks) := fill_mk rfl as ks
@[simp] theorem fill_sLocal {p} (as : List Attr) (ks : List Node) :
    fill σ (.mk (.sLocal p) as ks) = .mk (.sLocal p) as (fillL σ ks) := fill_mk rfl as ks
@[simp] theorem fill_sItem {i} (as : List Attr) (ks : List Node) :
    fill σ (.mk (.sItem i) as ks) = .mk (.sItem i) as (fillL σ ks) := fill_mk rfl as ks
@[simp] theorem fill_sMacro {p} {t} (as : List Attr) (ks : List Node) :
    fill σ (.mk (.sMacro p t) as ks) = .mk (.sMacro p t) as (fillL σ ks) := fill_mk rfl as ks
@[simp] theorem fill_iFn {n} {r} (as : List Attr) (ks : List Node) :
    fill σ (.mk (.iFn n r) as ks) = .mk (.iFn n r) as (fillL σ ks) := fill_mk rfl as ks

theorem fill_lit_cons (s : String) (as : List Attr) (n : Node) (ns : List Node) :
    fill σ (.mk (.eLit s) as (n :: ns)) = .mk (.eLit s) as (fill σ n :: fillL σ ns) := by
  rw [fill] <;> simp

theorem split_fill (k : Kind) (ks : List Node) :
    (∃ s, k = .eLit s ∧ ks = []) ∨ ∀ as, fill σ (.mk k as ks) = .mk k as (fillL σ ks) := by
  by_cases hk : isLit k = true
  · cases k <;> simp only [isLit, Bool.false_eq_true] at hk
    cases ks with
    | nil => exact .inl ⟨_, rfl, rfl⟩
    | cons a l => right; intro as; rw [fill]; simp
  · exact .inr fun as => fill_mk (by simpa using hk) as ks

@[simp] theorem tailS_fill (e : Node) : fill σ (tailS e) = tailS (fill σ e) := by simp [tailS]
@[simp] theorem semiS_fill (e : Node) : fill σ (semiS e) = semiS (fill σ e) := by simp [semiS]
@[simp] theorem exprBlock_fill (ss : List Node) : fill σ (exprBlock ss) = exprBlock (fillL σ ss) := by
  simp [exprBlock]
@[simp] theorem unitE_fill : fill σ unitE = unitE := by simp [unitE]
@[simp] theorem pathE_fill (p : Path) : fill σ (pathE p) = pathE p := by simp [pathE]
@[simp] theorem exprCall_fill (as : List Attr) (p : Path) (e : Node) :
    fill σ (exprCall as p e) = exprCall as p (fill σ e) := by simp [exprCall]

section

variable (h : ∀ s, operand (σ s) = true)
include h

/-- The kind of an operand put for a literal. -/
theorem hole_kind (s : String) : plainKind (σ s).kind = true := (operand_facts (h s)).1
theorem hole_still (s : String) : stillL false (σ s).kids = true := (operand_facts (h s)).2.2
theorem hole_eq (s : String) : Node.mk (σ s).kind [] (σ s).kids = σ s := by
  have := (operand_facts (h s)).2.1
  revert this
  cases σ s
  simp only [Node.rawAttrs, Node.kind, Node.kids]
  rintro rfl
  rfl
theorem hole_operand (s : String) : operand (.mk (σ s).kind [] (σ s).kids) = true := by rw [hole_eq h]; exact h s

theorem kind_fill (n : Node) : (fill σ n).kind.isExpr = n.kind.isExpr ∧ (fill σ n).kind.isStmt = n.kind.isStmt ∧
    (fill σ n).kind.hasAttrs = n.kind.hasAttrs ∧ (fill σ n).kind.isOpaque = n.kind.isOpaque ∧
    (fill σ n).rawAttrs = n.rawAttrs := by
  obtain ⟨k, as, ks⟩ := n
  rcases split_fill (σ := σ) k ks with ⟨s, rfl, rfl⟩ | hf
  · rw [fill_hole]
    have := hole_kind h s
    show (σ s).kind.isExpr = _ ∧ (σ s).kind.isStmt = _ ∧ (σ s).kind.hasAttrs = _ ∧ (σ s).kind.isOpaque = _ ∧ as = as
    generalize (σ s).kind = k at this
    cases k <;> first | exact ⟨rfl, rfl, rfl, rfl, rfl⟩ | cases this
  · rw [hf]; exact ⟨rfl, rfl, rfl, rfl, rfl⟩

theorem attrs_fill : ∀ n : Node, (fill σ n).attrs = n.attrs := by
  intro n
  induction n using Node.ind with
  | h k as ks ih =>
    rcases split_fill (σ := σ) k ks with ⟨s, rfl, rfl⟩ | hf
    · rw [fill_hole]
      have := hole_kind h s
      revert this
      cases (σ s).kind <;> simp [plainKind, Node.attrs, Kind.hasAttrs]
    · rw [hf]
      by_cases hs : ∃ semi e, k = .sExpr semi ∧ ks = [e]
      · obtain ⟨semi, e, rfl, rfl⟩ := hs
        simp only [fillL_cons, fillL_nil, Node.attrs]
        exact ih e (by simp)
      · have h1 : ∀ ks, (¬ ∃ semi e, k = .sExpr semi ∧ ks = [e]) →
            (Node.mk k as ks).attrs = if k.hasAttrs then as else [] := by
          intro ks hs
          unfold Node.attrs
          split
          · rename_i heq; cases heq; exact absurd ⟨_, _, rfl, rfl⟩ hs
          · rename_i heq; cases heq; rfl
        rw [h1 ks hs, h1 _ ?_]
        rintro ⟨semi, e, rfl, he⟩
        match ks, he with
        | [], he => simp at he
        | [a], _ => exact hs ⟨_, _, rfl, rfl⟩
        | _ :: _ :: _, he => simp at he

theorem anyAttr_fill (n : Node) (s : String) : (fill σ n).anyAttr s = n.anyAttr s := by
  simp [Node.anyAttr, attrs_fill h]
theorem anyEmptyAttr_fill (n : Node) (s : String) : (fill σ n).anyEmptyAttr s = n.anyEmptyAttr s := by
  simp [Node.anyEmptyAttr, attrs_fill h]

theorem findRemoveAttr_fill (n : Node) (s : String) :
    (fill σ n).findRemoveAttr s = (n.findRemoveAttr s).map fun r => (r.1, fill σ r.2) := by
  obtain ⟨k, as, ks⟩ := n
  rcases split_fill (σ := σ) k ks with ⟨t, rfl, rfl⟩ | hf
  · rw [fill_hole]
    have hk : (σ t).kind.hasAttrs = true := by
      have := hole_kind h t
      revert this
      cases (σ t).kind <;> simp [plainKind, Kind.hasAttrs]
    have hl : (Kind.eLit t).hasAttrs = true := rfl
    simp only [Node.findRemoveAttr, hk, hl, if_true]
    cases findRemove (·.is s) as with
    | none => rfl
    | some r => simp [fill_hole]
  · simp only [hf, Node.findRemoveAttr]
    split
    · cases findRemove (·.is s) as with
      | none => rfl
      | some r => simp [hf]
    · rfl

/-! ## Read-only traversals -/

theorem findNested_fill : ∀ n : Node, findNested (fill σ n) = findNested n := by
  intro n
  induction n using Node.ind with
  | h k as ks ih =>
    have hL : findNestedL (fillL σ ks) = findNestedL ks := by
      have : ∀ l : List Node, (∀ n ∈ l, n ∈ ks) → findNestedL (fillL σ l) = findNestedL l := by
        intro l
        induction l with
        | nil => intro _; rw [fillL_nil]
        | cons a l ihl =>
          intro hm
          rw [fillL_cons, findNestedL, findNestedL, ih a (hm a (by simp)), ihl fun n hn => hm n (by simp [hn])]
      exact this ks fun _ h => h
    rcases split_fill (σ := σ) k ks with ⟨t, rfl, rfl⟩ | hf
    · rw [fill_hole]
      have hk := hole_kind h t
      have hn : findNestedL (σ t).kids = false := by
        have := hole_still h t
        generalize (σ t).kids = l at this
        induction l with
        | nil => rfl
        | cons a l ihl =>
          rw [stillL, Bool.and_eq_true] at this
          rw [findNestedL, still_nested this.1, ihl this.2]; rfl
      revert hk
      cases (σ t).kind <;> simp [plainKind, findNested, findNestedL, Kind.isOpaque, hn]
    · rw [hf]
      cases k <;> simp [findNested, Kind.isOpaque, Kind.isExpr, Kind.hasAttrs, hL]

theorem findNestedL_fill (l : List Node) : findNestedL (fillL σ l) = findNestedL l := by
  induction l with
  | nil => simp
  | cons a l ih => rw [fillL_cons, findNestedL, findNestedL, findNested_fill h, ih]

omit h in
theorem operand_path {q : Bool} {p : Path} {as : List Attr} {ks : List Node} (hop : operand (.mk (.ePath q p) as ks) = true) :
    pathEq p ["std", "core"] ["result", "Result", "Err"] = false := by
  rw [operand.eq_def] at hop
  cases he : pathEq p ["std", "core"] ["result", "Result", "Err"] with
  | false => rfl
  | true =>
    have := pathEq_last (by simp) he
    simp [this] at hop

theorem isNoneOrErr_fill (n : Node) : isNoneOrErr (fill σ n) = isNoneOrErr n := by
  obtain ⟨k, as, ks⟩ := n
  rcases split_fill (σ := σ) k ks with ⟨t, rfl, rfl⟩ | hf
  · rw [fill_hole, operand_noneErr (hole_operand h t)]; rfl
  · rw [hf]
    cases k <;> try rfl
    case ePath q p => cases q <;> rfl
    case eCall =>
      have hc : ∀ (e : Node) (l : List Node), (∀ q p as ks, e ≠ .mk (.ePath q p) as ks) →
          isNoneOrErr (.mk .eCall as (e :: l)) = false := by
        intro e l he
        unfold isNoneOrErr
        split
        · rename_i heq; cases heq
        · rename_i heq; cases heq; exact absurd rfl (he _ _ _ _)
        · rfl
      match ks with
      | [] => simp
      | .mk k1 as1 ks1 :: l =>
        rcases split_fill (σ := σ) k1 ks1 with ⟨t, rfl, rfl⟩ | hf1
        · have hr : isNoneOrErr (.mk .eCall as (.mk (.eLit t) as1 [] :: l)) = false := hc _ _ (by simp)
          rw [hr, fillL_cons, fill_hole]
          have hop := hole_operand h t
          generalize (σ t).kind = k' at hop
          generalize (σ t).kids = ks' at hop
          unfold isNoneOrErr
          split
          · rename_i heq; cases heq
          · rename_i heq
            injection heq with _ _ heq
            injection heq with heq _
            injection heq with hk _ _
            rw [hk] at hop
            exact operand_path hop
          · rfl
        · rw [fillL_cons, hf1]
          by_cases hp : ∃ q p, k1 = .ePath q p
          · obtain ⟨q, p, rfl⟩ := hp
            cases q
            · match l with
              | [] => rw [fillL_nil]; rfl
              | [b] => simp only [fillL_cons, fillL_nil]; rfl
              | _ :: _ :: _ => simp only [fillL_cons]; rfl
            · match l with
              | [] => rw [fillL_nil]; rfl
              | [b] => simp only [fillL_cons, fillL_nil]; rfl
              | _ :: _ :: _ => simp only [fillL_cons]; rfl
          · have hq : ∀ ks1 : List Node, ∀ q p as ks, Node.mk k1 as1 ks1 ≠ .mk (.ePath q p) as ks := by
              intro ks1 q p as ks he
              injection he with he
              exact hp ⟨q, p, he⟩
            rw [hc _ _ (hq _), hc _ _ (hq _)]

/-! ## `is_unreachable` -/

mutual
theorem isUnreachable_fill (c : Cx) (n : Node) : isUnreachable c (fill σ n) = isUnreachable c n := by
  obtain ⟨k, as, ks⟩ := n
  rcases split_fill (σ := σ) k ks with ⟨t, rfl, rfl⟩ | hf
  · rw [fill_hole, operand_unreachable c (hole_operand h t), isUnreachable.eq_def]
    simp [Kind.hasAttrs]
  · rw [hf, isUnreachable.eq_def c (.mk k as (fillL σ ks)), isUnreachable.eq_def c (.mk k as ks)]
    dsimp only
    generalize (k.hasAttrs && (anyEmptyAttr as NEVER || anyAttr as NAME)) = b
    refine congrArg (b || ·) ?_
    cases k <;> try rfl
    case eBlock l => exact isUnreachableLast_fill c ks
    case eUnsafe => exact isUnreachableLast_fill c ks
    case eMatch =>
      match ks with
      | [] => simp
      | s :: arms => simp only [fillL_cons]; exact isUnreachableArms_fill c arms
    case eTry =>
      match ks with
      | [] => simp
      | [e] => simp only [fillL_cons, fillL_nil]; exact isNoneOrErr_fill h e
      | _ :: _ :: _ => simp
    case eMethodCall m =>
      match ks with
      | [] => simp
      | r :: _ => simp only [fillL_cons]; exact isUnreachable_fill c r
    case eParen =>
      match ks with
      | [] => simp
      | [e] => simp only [fillL_cons, fillL_nil]; exact isUnreachable_fill c e
      | _ :: _ :: _ => simp
theorem isUnreachableLast_fill (c : Cx) (l : List Node) :
    isUnreachableLast c (fillL σ l) = isUnreachableLast c l := by
  match l with
  | [] => simp
  | [.mk k as ks] =>
    rw [fillL_cons, fillL_nil]
    rcases split_fill (σ := σ) k ks with ⟨t, rfl, rfl⟩ | hf
    · rw [fill_hole]
      have hk := hole_kind h t
      revert hk
      cases (σ t).kind <;> simp [plainKind, isUnreachableLast]
    · rw [hf]
      cases k <;> try (simp [isUnreachableLast]; done)
      case sExpr semi =>
        match ks with
        | [] => simp [isUnreachableLast]
        | [e] => simp [isUnreachableLast, isUnreachable_fill c e]
        | _ :: _ :: _ => simp [isUnreachableLast]
      case sLocal p =>
        match ks with
        | [] => simp [isUnreachableLast]
        | e :: _ => simp [isUnreachableLast, isUnreachable_fill c e]
  | a :: b :: l =>
    have := isUnreachableLast_fill c (b :: l)
    simp only [fillL_cons] at this ⊢
    rw [isUnreachableLast, isUnreachableLast, this]
theorem isUnreachableArms_fill (c : Cx) (l : List Node) :
    isUnreachableArms c (fillL σ l) = isUnreachableArms c l := by
  match l with
  | [] => simp
  | .mk k as ks :: ns =>
    rw [fillL_cons]
    rcases split_fill (σ := σ) k ks with ⟨t, rfl, rfl⟩ | hf
    · rw [fill_hole]
      have hk := hole_kind h t
      revert hk
      cases (σ t).kind <;> simp [plainKind, isUnreachableArms]
    · rw [hf]
      cases k <;> try (simp [isUnreachableArms]; done)
      case arm p =>
        match ks with
        | [] => simp [isUnreachableArms]
        | [b] => simp [isUnreachableArms, isUnreachable_fill c b, isUnreachableArms_fill c ns]
        | [g, b] => simp [isUnreachableArms, isUnreachable_fill c b, isUnreachableArms_fill c ns]
        | _ :: _ :: _ :: _ => simp [isUnreachableArms]
end

omit h in
theorem nextExprAttrs_pair (c : Cx) (as : List Attr) (e : Node) :
    c.nextExprAttrs as (fill σ e) = pair σ (c.nextExprAttrs as e) := by
  simp only [Cx.nextExprAttrs, pair, exprCall_fill]

omit h in
theorem nextExpr_pair (c : Cx) (e : Node) : c.nextExpr (fill σ e) = pair σ (c.nextExpr e) := nextExprAttrs_pair c [] e

theorem isMarkerExpr_fill (c : Cx) (n : Node) : c.isMarkerExpr (fill σ n) = c.isMarkerExpr n := by
  obtain ⟨k, as, ks⟩ := n
  rcases split_fill (σ := σ) k ks with ⟨t, rfl, rfl⟩ | hf
  · rw [fill_hole]
    have hk := hole_kind h t
    revert hk
    cases (σ t).kind <;> simp [plainKind, Cx.isMarkerExpr]
  · rw [hf]; cases k <;> rfl

theorem replaceBoxed_pair (c : Cx) (ks : List Node) : c.replaceBoxed (fillL σ ks) = pairL σ (c.replaceBoxed ks) := by
  match ks with
  | [] =>
    have := nextExpr_pair (σ := σ) c unitE
    rw [unitE_fill] at this
    simp only [fillL_nil, Cx.replaceBoxed, pairL, fillL_cons]
    rw [this]
    rw [this]
    rfl
  | e :: rest =>
    simp only [fillL_cons, Cx.replaceBoxed, isMarkerExpr_fill h]
    split
    · simp [pairL]
    · rw [nextExpr_pair]; simp [pair, pairL]

theorem skipArm_fill (c : Cx) (k : Kind) (as : List Attr) (ks : List Node)
    (hk : fill σ (.mk k as ks) = .mk k as (fillL σ ks)) :
    skipArm c (.mk k as (fillL σ ks)) = skipArm c (.mk k as ks) := by
  have hf := findNested_fill h (.mk k as ks)
  rw [hk] at hf
  match ks with
  | [] => simp
  | [b] =>
    simp only [fillL_cons, fillL_nil] at hf
    simp [skipArm, armBody, isUnreachable_fill h, hf]
  | [g, b] =>
    simp only [fillL_cons, fillL_nil] at hf
    simp [skipArm, armBody, isUnreachable_fill h, hf]
  | _ :: _ :: _ :: _ => simp [skipArm, armBody]

theorem wrapArm_pair (c : Cx) (n : Node) : wrapArm c (fill σ n) = pair σ (wrapArm c n) := by
  obtain ⟨k, as, ks⟩ := n
  have hno : ∀ n : Node, (∀ p as ks, n ≠ .mk (.arm p) as ks) → wrapArm c n = (c, n) := by
    intro n hn
    unfold wrapArm
    split
    · rfl
    · split
      · exact absurd rfl (hn _ _ _)
      · exact absurd rfl (hn _ _ _)
      · rfl
  rcases split_fill (σ := σ) k ks with ⟨t, rfl, rfl⟩ | hf
  · rw [hno (.mk (.eLit t) as []) (by simp), hno _ ?_]
    · rfl
    · rw [fill_hole]
      have hk := hole_kind h t
      revert hk
      cases (σ t).kind <;> simp [plainKind]
  · by_cases hk : ∃ p, k = .arm p
    · obtain ⟨p, rfl⟩ := hk
      unfold wrapArm
      rw [hf, skipArm_fill h c _ as ks (hf as)]
      split
      · rw [pair, hf]
      · match ks with
        | [] => simp [pair]
        | [b] => simp [fillL_cons, fillL_nil, nextExpr_pair, pair]
        | [g, b] => simp [fillL_cons, fillL_nil, nextExpr_pair, pair]
        | _ :: _ :: _ :: _ => simp [pair]
    · rw [hno (.mk k as ks) (by intro p _ _ he; cases he; exact hk ⟨p, rfl⟩), hf,
        hno _ (by intro p _ _ he; cases he; exact hk ⟨p, rfl⟩), pair, hf]

theorem skipBlock_fill (c : Cx) (l : List Node) : skipBlock c (fillL σ l) = skipBlock c l := by
  have hl : (fillL σ l).getLast? = l.getLast?.map (fill σ) := by rw [fillL_map, List.getLast?_map]
  unfold skipBlock
  rw [hl, isUnreachableLast_fill h, findNestedL_fill h]
  cases l.getLast? with
  | none => rfl
  | some n =>
    obtain ⟨k, as, ks⟩ := n
    rw [Option.map_some]
    rcases split_fill (σ := σ) k ks with ⟨t, rfl, rfl⟩ | hf
    · rw [fill_hole]
      have hk := hole_kind h t
      revert hk
      cases (σ t).kind <;> simp [plainKind]
    · rw [hf]
      cases k <;> try rfl
      case sExpr semi =>
        cases semi <;> try rfl
        match ks with
        | [] => simp
        | [e] => simp only [fillL_cons, fillL_nil, anyEmptyAttr_fill h, isUnreachable_fill h]
        | _ :: _ :: _ => simp

theorem wrapBlock_pair (c : Cx) (l : List Node) : wrapBlock c (fillL σ l) = pairL σ (wrapBlock c l) := by
  unfold wrapBlock
  rw [skipBlock_fill h]
  split
  · rfl
  · rw [← exprBlock_fill, nextExpr_pair]
    simp [pair, pairL]

theorem visitIf_pair : ∀ (n : Node) (c : Cx), visitIf c (fill σ n) = pair σ (visitIf c n) := by
  have hno : ∀ (n : Node) (c : Cx), n.kind ≠ .eIf → visitIf c n = (c, n) := by
    intro n c hn
    obtain ⟨k, as, ks⟩ := n
    cases k <;> first | rfl | exact absurd rfl hn
  have hbl : ∀ (n c1 : Node) (as : List Attr) (l : List Node) (c : Cx), (∀ as ss, n ≠ .mk .block as ss) →
      visitIf c (.mk .eIf as (c1 :: n :: l)) = (c, .mk .eIf as (c1 :: n :: l)) := by
    intro n c1 as l c hn
    rw [visitIf.eq_def]
    split
    · rename_i heq; cases heq; exact absurd rfl (hn _ _)
    · rename_i heq; cases heq; exact absurd rfl (hn _ _)
    · rfl
  refine Node.ind ?_
  intro k as ks ih c
  rcases split_fill (σ := σ) k ks with ⟨t, rfl, rfl⟩ | hf
  · rw [hno (.mk (.eLit t) as []) c (by simp [Node.kind]), hno]
    · rfl
    · rw [fill_hole]
      have hk := hole_kind h t
      revert hk
      show _ → (σ t).kind ≠ _
      cases (σ t).kind <;> simp [plainKind]
  · by_cases hk : k = .eIf
    · subst hk
      match ks, ih with
      | [], _ => rw [hf]; simp [visitIf, pair]
      | [_], _ => rw [hf]; simp [visitIf, pair]
      | cnd :: .mk kb asb ss :: l, ih =>
        rw [hf]
        simp only [fillL_cons]
        by_cases hb : kb = .block
        · subst hb
          match l with
          | [] =>
            simp only [fillL_nil, fill_block, visitIf, wrapBlock_pair h]
            simp [pair, pairL]
          | [e] =>
            have ihe := ih e (by simp)
            simp only [fillL_cons, fillL_nil, fill_block, visitIf, wrapBlock_pair h]
            obtain ⟨ke, ase, kse⟩ := e
            rcases split_fill (σ := σ) ke kse with ⟨t, rfl, rfl⟩ | hfe
            · have hk := hole_kind h t
              have hkd : (Node.mk (σ t).kind ase (σ t).kids).kind = (σ t).kind := rfl
              have hp : ∀ r : Cx × List Node, pair σ (r.1.panic .wrongIf, Node.mk .eIf as [cnd, .mk .block asb r.2, .mk (.eLit t) ase []]) =
                  (r.1.panic .wrongIf, .mk .eIf as [fill σ cnd, .mk .block asb (fillL σ r.2), .mk (σ t).kind ase (σ t).kids]) := by
                intro r; simp [pair, fill_hole]
              show _ = pair σ ((wrapBlock c ss).1.panic .wrongIf, _)
              rw [hp, fill_hole, hkd]
              generalize (σ t).kind = k' at *
              cases k' <;> first | rfl | cases hk
            · rw [hfe] at ihe ⊢
              simp only [Node.kind, Node.kids, Node.rawAttrs]
              cases ke <;> try (simp [pair, pairL, fill_mk, isLit, hfe]; done)
              case eBlock lb =>
                simp only [pairL, wrapBlock_pair h]
                simp [pair]
              case eIf =>
                simp only [pairL, ihe]
                simp [pair]
          | _ :: _ :: _ => simp [fillL_cons, fill_mk, isLit, visitIf, pair]
        · have h1 : ∀ as ss', fill σ (.mk kb asb ss) ≠ .mk .block as ss' := by
            intro as1 ss1 he
            rcases split_fill (σ := σ) kb ss with ⟨t, rfl, rfl⟩ | hfe
            · rw [fill_hole] at he
              have hk := hole_kind h t
              injection he with he
              rw [he] at hk
              cases hk
            · rw [hfe] at he
              injection he with he
              exact hb he
          rw [hbl _ _ _ _ _ h1, hbl _ _ _ _ _ (by intro _ _ he; injection he with he; exact hb he)]
          simp [pair]
    · rw [hno (.mk k as ks) c hk, hf, hno (.mk k as (fillL σ ks)) c hk, pair, hf]

mutual
theorem loopVisit_pair (label : Option String) (nested : Bool) (c : Cx) (n : Node) :
    loopVisit label nested c (fill σ n) = pair σ (loopVisit label nested c n) := by
  obtain ⟨k, as, ks⟩ := n
  rcases split_fill (σ := σ) k ks with ⟨t, rfl, rfl⟩ | hf
  · rw [fill_hole]
    have hL := fun nst => still_loopL label nst c (hole_still h t)
    have h1 : loopVisit label nested c (.mk (.eLit t) as []) = (c, .mk (.eLit t) as []) := by
      rw [loopVisit.eq_def]; dsimp only; split <;> rfl
    rw [h1, pair, fill_hole, loopVisit.eq_def]
    dsimp only
    split
    · rfl
    · have hk := hole_kind h t
      revert hk
      cases (σ t).kind <;> simp [plainKind, hL]
  · have hL := fun nst => loopVisitL_pair label nst c ks
    rw [hf, loopVisit.eq_def _ _ c (.mk k as (fillL σ ks)), loopVisit.eq_def _ _ c (.mk k as ks)]
    dsimp only
    split
    · rw [pair, hf]
    · cases k <;> simp only [hL] <;> try (simp [pair, pairL]; done)
      case eLit s =>
        match ks with
        | [] => simp only [loopVisitL, pair, pairL, hf]
        | a :: l => simp only [loopVisitL, pair, pairL, fill_lit_cons, fillL_cons]
      case eLoop l => split <;> simp_all [pair, pairL]
      case eForLoop l p => split <;> simp_all [pair, pairL]
      case eWhile l => split <;> simp_all [pair, pairL]
      case eBreak l =>
        split
        · match ks with
          | [] =>
            have := replaceBoxed_pair h c []
            rw [fillL_nil] at this
            simp only [fillL_nil, pair, fill_eBreak]
            exact congrArg (fun r : Cx × List Node => (r.1, Node.mk (.eBreak _) as r.2)) this
          | e :: rest =>
            simp only [fillL_cons, isMarkerExpr_fill h]
            split
            · simp [pair]
            · have := loopVisit_pair label nested { c with variants := c.variants ++ [variantIdent c.variants.length] } e
              simp only [this]
              simp [pair]
        · simp [pair, pairL]
theorem loopVisitL_pair (label : Option String) (nested : Bool) (c : Cx) (l : List Node) :
    loopVisitL label nested c (fillL σ l) = pairL σ (loopVisitL label nested c l) := by
  match l with
  | [] => simp [loopVisitL, pairL]
  | n :: ns =>
    rw [fillL_cons, loopVisitL, loopVisitL, loopVisit_pair label nested c n]
    simp only [pair, loopVisitL_pair label nested _ ns]
    simp [pairL]
end

end

end Fill

end AutoEnums
