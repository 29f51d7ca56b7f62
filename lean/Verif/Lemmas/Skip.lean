import Verif.Spec.Skip
import Verif.Lemmas.PendPred

/-! # Lemmas: skipped branches -/

namespace AutoEnums

open Spec

theorem inner_eq (as : List Attr) : inner as = anyAttr as NAME := by
  unfold inner anyAttr
  congr 1
  funext a
  exact named_iff _ _

theorem failing_eq (n : Node) : isNoneOrErr n = failing n := by
  have e1 := fun p => pathEq_std p ["option", "Option"] "None"
  have e2 := fun p => pathEq_std p ["result", "Result"] "Err"
  simp only [List.cons_append, List.nil_append] at e1 e2
  unfold isNoneOrErr failing
  split
  · rw [e1]
  · rw [e2]
  · rename_i h1 h2
    split
    · exact (h1 _ _ _ rfl).elim
    · exact (h2 _ _ _ _ _ rfl).elim
    · rfl

theorem exempt_eq {cx : Cx} (hr : cx.root = true) :
    ∀ n, isUnreachable cx n = exempt cx.marker n := by
  apply Node.strongInd
  intro n ih
  obtain ⟨k, as, ks⟩ := n
  have hlast : ∀ l : List Node, sizeOf l ≤ sizeOf ks →
      isUnreachableLast cx l = exemptLast cx.marker l := by
    intro l
    induction l with
    | nil => intro _; rfl
    | cons s l ihl =>
      intro hl
      cases l with
      | cons s' l =>
        unfold isUnreachableLast exemptLast
        simpa using ihl (by simp at hl ⊢; omega)
      | nil =>
        obtain ⟨k', as', ks'⟩ := s
        cases k' <;> try rfl
        case sExpr b =>
          match ks' with
          | [] => rfl
          | [e] => simpa [isUnreachableLast, exemptLast] using ih e (by simp at hl ⊢; omega)
          | _ :: _ :: _ => rfl
        case sLocal b =>
          match ks' with
          | [] => rfl
          | e :: es => simpa [isUnreachableLast, exemptLast] using ih e (by simp at hl ⊢; omega)
        case sMacro p t => simp [isUnreachableLast, exemptLast, isUnreachableMacro_eq cx hr]
  have harms : ∀ l : List Node, sizeOf l ≤ sizeOf ks →
      isUnreachableArms cx l = exemptArms cx.marker l := by
    intro l
    induction l with
    | nil => intro _; rfl
    | cons s l ihl =>
      intro hl
      have h := ihl (by simp at hl ⊢; omega)
      obtain ⟨k', as', ks'⟩ := s
      cases k' <;> try rfl
      case arm p =>
        match ks' with
        | [] => rfl
        | [b] =>
          simp [isUnreachableArms, exemptArms, h, ih b (by simp at hl ⊢; omega), marked_eq, NEVER]
        | [_, b] =>
          simp [isUnreachableArms, exemptArms, h, ih b (by simp at hl ⊢; omega), marked_eq, NEVER]
        | _ :: _ :: _ :: _ => rfl
  unfold isUnreachable exempt
  rw [marked_eq, inner_eq]
  congr 1
  cases k <;> try rfl
  case eBlock => exact hlast ks (Nat.le_refl _)
  case eUnsafe => exact hlast ks (Nat.le_refl _)
  case eMacro p t => exact isUnreachableMacro_eq cx hr p
  case eMatch =>
    match ks with
    | [] => rfl
    | s :: arms => exact harms arms (by simp)
  case eTry =>
    match ks with
    | [] => rfl
    | [e] => exact failing_eq e
    | _ :: _ :: _ => rfl
  case eMethodCall m =>
    match ks with
    | [] => rfl
    | e :: es => exact ih e (by simp; omega)
  case eParen =>
    match ks with
    | [] => rfl
    | [e] => exact ih e (by simp; omega)
    | _ :: _ :: _ => rfl

mutual
theorem nestedIn_eq : ∀ n, findNested n = nestedIn n
  | .mk k as ks => by
    have h := nestedInL_eq ks
    unfold findNested nestedIn
    rw [marked_eq, inner_eq, h]
    cases k <;> simp [Kind.isOpaque, Kind.isExpr, Kind.hasAttrs, carries, isExpression, hidesCode, NESTED]
theorem nestedInL_eq : ∀ ns, findNestedL ns = nestedInL ns
  | [] => rfl
  | n :: ns => by rw [findNestedL, nestedInL, nestedIn_eq n, nestedInL_eq ns]
end

/-- An arm with a body and perhaps a guard. -/
def isArm (n : Node) : Prop := ∃ p as gs b, n = .mk (.arm p) as (gs ++ [b]) ∧ gs.length ≤ 1

theorem isArm_iff {n : Node} : isArm n ↔ ∃ p as, (∃ b, n = .mk (.arm p) as [b]) ∨
    ∃ g b, n = .mk (.arm p) as [g, b] := by
  constructor
  · rintro ⟨p, as, gs, b, rfl, hl⟩
    match gs with
    | [] => exact ⟨p, as, .inl ⟨b, rfl⟩⟩
    | [g] => exact ⟨p, as, .inr ⟨g, b, rfl⟩⟩
    | _ :: _ :: _ => simp at hl
  · rintro ⟨p, as, ⟨b, rfl⟩ | ⟨g, b, rfl⟩⟩
    · exact ⟨p, as, [], b, rfl, by simp⟩
    · exact ⟨p, as, [g], b, rfl, by simp⟩

theorem skipArm_exempt {cx : Cx} (hr : cx.root = true) {n : Node} (hn : isArm n) :
    skipArm cx n = exemptArm cx.marker n := by
  obtain ⟨p, as, ⟨b, rfl⟩ | ⟨g, b, rfl⟩⟩ := isArm_iff.mp hn <;>
  · simp only [skipArm, armBody, exemptArm, exempt_eq hr, nestedIn_eq, marked_eq, NEVER, NESTED]
    simp only [nestedIn, marked_eq, List.getLast?_cons_cons, List.getLast?_singleton]
    cases anyEmptyAttr as "never" <;> cases anyEmptyAttr as "nested" <;> simp [Bool.or_comm]

end AutoEnums
