import Verif.Spec.Pads
import Verif.Lemmas.FillFuel

/-! # Lemmas: adding statements commutes with the expansion (for C73) -/

set_option linter.unusedSimpArgs false

namespace AutoEnums

open Spec Fill

namespace Pad

variable {ξ : List Node}

/-! ## The relation -/

theorem inert_still {s : Node} (h : idleStmt s = true) : still false s = true := by
  simp only [idleStmt, Bool.and_eq_true] at h; exact h.2

theorem reflL (b : Bool) : ∀ l : List Node, PadsL b [] l l
  | [] => .nil
  | _ :: ns => .cons (ss := []) .same (reflL b ns)

theorem inv {k : Kind} {as : List Attr} {ks : List Node} {m : Node} (h : Pads ξ (.mk k as ks) m) :
    ∃ ks', m = .mk k as ks' ∧ PadsL k.isBlockLike ξ ks ks' ∧ (ξ = [] ∧ ks' = ks ∨ argOk k ks = true) := by
  cases h with
  | same => exact ⟨_, rfl, reflL _ _, .inl ⟨rfl, rfl⟩⟩
  | mk ho h => exact ⟨_, rfl, h, .inr ho⟩

theorem to {ζ : List Node} {n n' : Node} (h : Pads ξ n n') (e : ξ = ζ) : Pads ζ n n' := e ▸ h
theorem toL {b : Bool} {ζ l l' : List Node} (h : PadsL b ξ l l') (e : ξ = ζ) : PadsL b ζ l l' := e ▸ h

/-- Change the attributes. -/
theorem withAttrs {k : Kind} {as as' : List Attr} {ks ks' : List Node} (h : Pads ξ (.mk k as ks) (.mk k as ks')) :
    Pads ξ (.mk k as' ks) (.mk k as' ks') := by
  cases h with
  | same => exact .same
  | mk ho h => exact .mk ho h

theorem kind {n n' : Node} (h : Pads ξ n n') : n'.kind = n.kind := by cases h <;> rfl
theorem rawAttrs {n n' : Node} (h : Pads ξ n n') : n'.rawAttrs = n.rawAttrs := by cases h <;> rfl

theorem argOk_open {k : Kind} (h : k.isOpaque = false) (ks : List Node) : argOk k ks = true := by
  cases k <;> first | rfl | cases h

/-- The last statement stays the last one. -/
theorem lastOf {b : Bool} {l l' : List Node} (h : PadsL b ξ l l') : (ξ = [] ∧ l = [] ∧ l' = []) ∨
    ∃ ζ η i a i' a', ξ = ζ ++ η ∧ l = i ++ [a] ∧ l' = i' ++ [a'] ∧ Pads η a a' ∧
      ∀ η x x', Pads η x x' → PadsL b (ζ ++ η) (i ++ [x]) (i' ++ [x']) := by
  induction l' generalizing ξ l with
  | nil => cases h; exact .inl ⟨rfl, rfl, rfl⟩
  | cons n' ns' ih =>
    cases h with
    | cons hn hl =>
      rcases ih hl with ⟨rfl, rfl, rfl⟩ | ⟨ζ, η, i, a, i', a', rfl, rfl, rfl, ha, hx⟩
      · exact .inr ⟨[], _, [], _, [], n', by simp, rfl, rfl, hn, fun η x x' hx => toL (.cons hx .nil) (by simp)⟩
      · exact .inr ⟨_, η, _ :: i, a, n' :: i', a', (List.append_assoc _ _ _).symm, rfl, rfl, ha,
          fun η x x' h => toL (.cons hn (hx η x x' h)) (List.append_assoc _ _ _).symm⟩
    | add hs hl =>
      rcases ih hl with ⟨_, h, _⟩ | ⟨ζ, η, i, a, i', a', rfl, e, rfl, ha, hx⟩
      · cases h
      · refine .inr ⟨n' :: ζ, η, i, a, n' :: i', a', rfl, e, rfl, ha, fun η x x' h => ?_⟩
        have := hx η x x' h
        cases i with
        | nil => exact .add hs this
        | cons y i => exact .add hs this

theorem emptyL {b : Bool} {l l' : List Node} (h : PadsL b ξ l l') : l'.isEmpty = l.isEmpty := by
  cases h <;> rfl

/-- Results that are the same but for added statements. -/
def Rel (ξ : List Node) (r r' : Cx × Node) : Prop := r'.1 = r.1 ∧ Pads ξ r.2 r'.2
def RelL (b : Bool) (ξ : List Node) (r r' : Cx × List Node) : Prop := r'.1 = r.1 ∧ PadsL b ξ r.2 r'.2

theorem attrs : ∀ {n n' : Node} {ξ : List Node}, Pads ξ n n' → n'.attrs = n.attrs := by
  intro n
  induction n using Node.ind with
  | h k as ks ih =>
    intro n' ξ h
    obtain ⟨ks', rfl, hk, ho⟩ := inv h
    cases k <;> try rfl
    case sExpr semi =>
      have hk : PadsL false ξ ks ks' := hk
      cases hk with
      | nil => rfl
      | cons hn hl =>
        cases hl with
        | nil =>
          have := ih _ (by simp) hn
          simp only [Node.attrs]
          exact this
        | cons _ _ => rfl

theorem anyAttr {n n' : Node} (h : Pads ξ n n') (s : String) : n'.anyAttr s = n.anyAttr s := by
  simp [Node.anyAttr, attrs h]
theorem anyEmptyAttr {n n' : Node} (h : Pads ξ n n') (s : String) : n'.anyEmptyAttr s = n.anyEmptyAttr s := by
  simp [Node.anyEmptyAttr, attrs h]

theorem findRemoveAttr {n n' : Node} (h : Pads ξ n n') (s : String) :
    (n.findRemoveAttr s = none ∧ n'.findRemoveAttr s = none) ∨
      ∃ a m m', n.findRemoveAttr s = some (a, m) ∧ n'.findRemoveAttr s = some (a, m') ∧ Pads ξ m m' := by
  obtain ⟨k, as, ks⟩ := n
  obtain ⟨ks', rfl, hk, ho⟩ := inv h
  simp only [Node.findRemoveAttr]
  split
  · cases findRemove (·.is s) as with
    | none => exact .inl ⟨rfl, rfl⟩
    | some r => exact .inr ⟨r.1, _, _, rfl, rfl, withAttrs h⟩
  · exact .inl ⟨rfl, rfl⟩

/-! ## Read-only traversals -/

theorem findNested_pads : ∀ {n n' : Node} {ξ : List Node}, Pads ξ n n' → findNested n' = findNested n := by
  intro n
  induction n using Node.ind with
  | h k as ks ih =>
    intro n' ξ h
    obtain ⟨ks', rfl, hk, ho⟩ := inv h
    have hL : ∀ (b : Bool) (ξ l l' : List Node), (∀ n ∈ l, n ∈ ks) → PadsL b ξ l l' → findNestedL l' = findNestedL l := by
      intro b ξ l l' hm hl
      induction l' generalizing ξ l with
      | nil => cases hl; rfl
      | cons a l' ihl =>
        cases hl with
        | cons hn hl =>
          rw [findNestedL, findNestedL, ih _ (hm _ (by simp)) hn, ihl _ _ (fun n hn => hm n (by simp [hn])) hl]
        | add hs hl => rw [findNestedL, still_nested (inert_still hs), ihl _ _ hm hl]; rfl
    have := hL _ _ ks ks' (fun _ h => h) hk
    cases k <;> simp [findNested, this]

theorem findNestedL_pads {b : Bool} {l l' : List Node} (hl : PadsL b ξ l l') : findNestedL l' = findNestedL l := by
  induction l' generalizing ξ l with
  | nil => cases hl; rfl
  | cons a l' ihl =>
    cases hl with
    | cons hn hl => rw [findNestedL, findNestedL, findNested_pads hn, ihl hl]
    | add hs hl => rw [findNestedL, still_nested (inert_still hs), ihl hl]; rfl

theorem isNoneOrErr_pads {n n' : Node} (h : Pads ξ n n') : isNoneOrErr n' = isNoneOrErr n := by
  obtain ⟨k, as, ks⟩ := n
  obtain ⟨ks', rfl, hk, ho⟩ := inv h
  cases k <;> try rfl
  case ePath q p => cases q <;> rfl
  case eCall =>
    have hk : PadsL false ξ ks ks' := hk
    cases hk with
    | nil => rfl
    | cons hn hl =>
      rename_i n1 n1' _ _
      obtain ⟨k1, as1, ks1⟩ := n1
      obtain ⟨ks1', rfl, hk1⟩ := inv hn
      cases k1 <;> try rfl
      case ePath q p =>
        cases q
        · cases hl with
          | nil => rfl
          | cons _ hl => cases hl <;> rfl
        · cases hl with
          | nil => rfl
          | cons _ hl => cases hl <;> rfl

/-! ## `is_unreachable` -/

theorem unreachableLast_cons (c : Cx) (x y : Node) (l : List Node) :
    isUnreachableLast c (x :: y :: l) = isUnreachableLast c (y :: l) := by
  rw [isUnreachableLast.eq_7]

theorem unreachableLast_append (c : Cx) (a : Node) : ∀ i : List Node,
    isUnreachableLast c (i ++ [a]) = isUnreachableLast c [a]
  | [] => rfl
  | [x] => unreachableLast_cons c x a []
  | x :: y :: i => (unreachableLast_cons c x y (i ++ [a])).trans (unreachableLast_append c a (y :: i))

/-- An arm that is unreachable. -/
def deadArm (c : Cx) : Node → Bool
  | .mk (.arm _) as [b] => AutoEnums.anyEmptyAttr as NEVER || isUnreachable c b
  | .mk (.arm _) as [_, b] => AutoEnums.anyEmptyAttr as NEVER || isUnreachable c b
  | _ => false

theorem unreachableArms_cons (c : Cx) (n : Node) (ns : List Node) :
    isUnreachableArms c (n :: ns) = (deadArm c n && isUnreachableArms c ns) := by
  obtain ⟨k, as, ks⟩ := n
  cases k <;> try (simp [isUnreachableArms, deadArm]; done)
  case arm p =>
    match ks with
    | [] => simp [isUnreachableArms, deadArm]
    | [b] => simp [isUnreachableArms, deadArm]
    | [g, b] => simp [isUnreachableArms, deadArm]
    | _ :: _ :: _ :: _ => simp [isUnreachableArms, deadArm]

theorem unreachable_all (c : Cx) : ∀ {n n' : Node} {ξ : List Node}, Pads ξ n n' → isUnreachable c n' = isUnreachable c n ∧
    isUnreachableLast c [n'] = isUnreachableLast c [n] ∧ deadArm c n' = deadArm c n := by
  intro n
  induction n using Node.ind with
  | h k as ks ih =>
    intro n' ξ h
    obtain ⟨ks', rfl, hk, ho⟩ := inv h
    have hlast : isUnreachableLast c ks' = isUnreachableLast c ks := by
      rcases lastOf hk with ⟨rfl, rfl, rfl⟩ | ⟨ζ, η, i, a, i', a', rfl, rfl, rfl, ha, -⟩
      · rfl
      · rw [unreachableLast_append, unreachableLast_append]
        exact (ih a (by simp) ha).2.1
    refine ⟨?_, ?_, ?_⟩
    · rw [isUnreachable.eq_def c (.mk k as ks'), isUnreachable.eq_def c (.mk k as ks)]
      dsimp only
      generalize (k.hasAttrs && (AutoEnums.anyEmptyAttr as NEVER || AutoEnums.anyAttr as NAME)) = b
      refine congrArg (b || ·) ?_
      cases k <;> try rfl
      case eBlock l => exact hlast
      case eUnsafe => exact hlast
      case eMatch =>
        have hk : PadsL false ξ ks ks' := hk
        cases hk with
        | nil => rfl
        | cons hn hl =>
          rename_i s s' arms arms'
          show isUnreachableArms c arms' = isUnreachableArms c arms
          have : ∀ ξ l l', (∀ n ∈ l, n ∈ s :: arms) → PadsL false ξ l l' → isUnreachableArms c l' = isUnreachableArms c l := by
            intro ξ l l' hm hl
            induction l' generalizing ξ l with
            | nil => cases hl; rfl
            | cons a l' ihl =>
              cases hl with
              | cons hn hl =>
                rw [unreachableArms_cons, unreachableArms_cons, (ih _ (hm _ (by simp)) hn).2.2,
                  ihl _ _ (fun n hn => hm n (by simp [hn])) hl]
          exact this _ _ _ (fun n hn => by simp [hn]) hl
      case eTry =>
        have hk : PadsL false ξ ks ks' := hk
        cases hk with
        | nil => rfl
        | cons hn hl =>
          cases hl with
          | nil => exact isNoneOrErr_pads hn
          | cons _ _ => rfl
      case eMethodCall m =>
        have hk : PadsL false ξ ks ks' := hk
        cases hk with
        | nil => rfl
        | cons hn hl => exact (ih _ (by simp) hn).1
      case eParen =>
        have hk : PadsL false ξ ks ks' := hk
        cases hk with
        | nil => rfl
        | cons hn hl =>
          cases hl with
          | nil => exact (ih _ (by simp) hn).1
          | cons _ _ => rfl
    · cases k <;> try (simp [isUnreachableLast]; done)
      case sExpr semi =>
        have hk : PadsL false ξ ks ks' := hk
        cases hk with
        | nil => rfl
        | cons hn hl =>
          cases hl with
          | nil => simp only [isUnreachableLast]; exact (ih _ (by simp) hn).1
          | cons _ _ => simp [isUnreachableLast]
      case sLocal p =>
        have hk : PadsL false ξ ks ks' := hk
        cases hk with
        | nil => rfl
        | cons hn hl => simp only [isUnreachableLast]; exact (ih _ (by simp) hn).1
    · cases k <;> try rfl
      case arm p =>
        have hk : PadsL false ξ ks ks' := hk
        cases hk with
        | nil => rfl
        | cons hn hl =>
          cases hl with
          | nil => simp only [deadArm, (ih _ (by simp) hn).1]
          | cons hb hl =>
            cases hl with
            | nil => simp only [deadArm, (ih _ (by simp) hb).1]
            | cons _ _ => rfl

theorem isUnreachable_pads (c : Cx) {n n' : Node} (h : Pads ξ n n') : isUnreachable c n' = isUnreachable c n :=
  (unreachable_all c h).1

theorem unreachableLast_pads (c : Cx) {b : Bool} {l l' : List Node} (h : PadsL b ξ l l') :
    isUnreachableLast c l' = isUnreachableLast c l := by
  rcases lastOf h with ⟨rfl, rfl, rfl⟩ | ⟨ζ, η, i, a, i', a', rfl, rfl, rfl, ha, -⟩
  · rfl
  · rw [unreachableLast_append, unreachableLast_append]
    exact (unreachable_all c ha).2.1

/-! ## `child_expr` -/

theorem exprCall_pads (as : List Attr) (p : Path) {e e' : Node} (h : Pads ξ e e') :
    Pads ξ (exprCall as p e) (exprCall as p e') := to (.mk rfl (.cons .same (.cons h .nil))) (by simp)

theorem nextExprAttrs_rel (c : Cx) (as : List Attr) {e e' : Node} (h : Pads ξ e e') :
    Rel ξ (c.nextExprAttrs as e) (c.nextExprAttrs as e') := ⟨rfl, exprCall_pads _ _ h⟩

theorem nextExpr_rel (c : Cx) {e e' : Node} (h : Pads ξ e e') : Rel ξ (c.nextExpr e) (c.nextExpr e') :=
  nextExprAttrs_rel c [] h

theorem isMarkerExpr_pads (c : Cx) {n n' : Node} (h : Pads ξ n n') : c.isMarkerExpr n' = c.isMarkerExpr n := by
  obtain ⟨k, as, ks⟩ := n
  obtain ⟨ks', rfl, hk, ho⟩ := inv h
  cases k <;> rfl

theorem replaceBoxed_rel (c : Cx) {ks ks' : List Node} (h : PadsL false ξ ks ks') :
    RelL false ξ (c.replaceBoxed ks) (c.replaceBoxed ks') := by
  cases h with
  | nil => exact ⟨rfl, reflL _ _⟩
  | cons hn hl =>
    simp only [Cx.replaceBoxed, isMarkerExpr_pads c hn]
    split
    · exact ⟨rfl, .cons hn hl⟩
    · exact ⟨rfl, .cons (nextExpr_rel c hn).2 hl⟩

theorem skipArm_pads (c : Cx) {n n' : Node} (h : Pads ξ n n') (hb : n.kind.isBlockLike = false) :
    skipArm c n' = skipArm c n := by
  obtain ⟨k, as, ks⟩ := n
  have hf := findNested_pads h
  obtain ⟨ks', rfl, hk, ho⟩ := inv h
  have hb : k.isBlockLike = false := hb
  rw [hb] at hk
  cases hk with
  | nil => rfl
  | cons hn hl =>
    cases hl with
    | nil => simp only [skipArm, armBody, isUnreachable_pads c hn, hf]
    | cons hg hl =>
      cases hl with
      | nil => simp only [skipArm, armBody, isUnreachable_pads c hg, hf]
      | cons _ _ => rfl

theorem wrapArm_rel (c : Cx) {n n' : Node} (h : Pads ξ n n') : Rel ξ (wrapArm c n) (wrapArm c n') := by
  obtain ⟨k, as, ks⟩ := n
  have hno : ∀ n : Node, (∀ p as ks, n ≠ .mk (.arm p) as ks) → wrapArm c n = (c, n) := by
    intro n hn
    unfold wrapArm
    split
    · rfl
    · split
      · exact absurd rfl (hn _ _ _)
      · exact absurd rfl (hn _ _ _)
      · rfl
  by_cases ha : ∃ p, k = .arm p
  · obtain ⟨p, rfl⟩ := ha
    have hs := skipArm_pads c h rfl
    unfold wrapArm
    rw [hs]
    cases skipArm c (.mk (.arm p) as ks) with
    | true => exact ⟨rfl, h⟩
    | false =>
      simp only [Bool.false_eq_true, if_false]
      obtain ⟨ks', rfl, hk, ho⟩ := inv h
      have hk : PadsL false ξ ks ks' := hk
      cases hk with
      | nil => exact ⟨rfl, h⟩
      | cons hn hl =>
        cases hl with
        | nil => exact ⟨rfl, .mk rfl (.cons (nextExpr_rel c hn).2 .nil)⟩
        | cons hb hl =>
          cases hl with
          | nil => exact ⟨rfl, .mk rfl (.cons hn (.cons (nextExpr_rel c hb).2 .nil))⟩
          | cons _ _ => exact ⟨rfl, h⟩
  · obtain ⟨ks', rfl, hk, ho⟩ := inv h
    rw [hno _ (by intro p _ _ he; cases he; exact ha ⟨p, rfl⟩), hno _ (by intro p _ _ he; cases he; exact ha ⟨p, rfl⟩)]
    exact ⟨rfl, h⟩

theorem skipBlock_pads (c : Cx) {l l' : List Node} (h : PadsL true ξ l l') : skipBlock c l' = skipBlock c l := by
  unfold skipBlock
  rw [unreachableLast_pads c h, findNestedL_pads h]
  rcases lastOf h with ⟨rfl, rfl, rfl⟩ | ⟨ζ, η, i, a, i', a', rfl, rfl, rfl, ha, -⟩
  · rfl
  · rw [List.getLast?_concat, List.getLast?_concat]
    obtain ⟨k, as, ks⟩ := a
    obtain ⟨ks', rfl, hk, ho⟩ := inv ha
    cases k <;> try rfl
    case sExpr semi =>
      cases semi <;> try rfl
      have hk : PadsL false _ ks ks' := hk
      cases hk with
      | nil => rfl
      | cons hn hl =>
        cases hl with
        | nil => simp only [anyEmptyAttr hn, isUnreachable_pads c hn]
        | cons _ _ => rfl

theorem exprBlock_pads {l l' : List Node} (h : PadsL true ξ l l') : Pads ξ (exprBlock l) (exprBlock l') := .mk rfl h

theorem wrapBlock_rel (c : Cx) {l l' : List Node} (h : PadsL true ξ l l') :
    RelL true ξ (wrapBlock c l) (wrapBlock c l') := by
  unfold wrapBlock
  rw [skipBlock_pads c h]
  split
  · exact ⟨rfl, h⟩
  · exact ⟨rfl, toL (.cons (.mk rfl (.cons (nextExpr_rel c (exprBlock_pads h)).2 .nil)) .nil) (by simp)⟩

theorem visitIf_rel : ∀ {n n' : Node} {ξ : List Node}, Pads ξ n n' → ∀ c : Cx, Rel ξ (visitIf c n) (visitIf c n') := by
  have hno : ∀ (n : Node) (c : Cx), n.kind ≠ .eIf → visitIf c n = (c, n) := by
    intro n c hn
    obtain ⟨k, as, ks⟩ := n
    cases k <;> first | rfl | exact absurd rfl hn
  have hbl : ∀ (n c1 : Node) (as : List Attr) (l : List Node) (c : Cx), (∀ as ss, n ≠ .mk .block as ss) →
      visitIf c (.mk .eIf as (c1 :: n :: l)) = (c, .mk .eIf as (c1 :: n :: l)) := by
    intro n c1 as l c hn
    rw [visitIf.eq_def]
    split
    · rename_i heq; cases heq; exact absurd rfl (hn _ _)
    · rename_i heq; cases heq; exact absurd rfl (hn _ _)
    · rfl
  intro n
  induction n using Node.ind with
  | h k as ks ih =>
    intro n' ξ h c
    by_cases hif : k = .eIf
    · subst hif
      obtain ⟨ks', rfl, hk, ho⟩ := inv h
      have hk : PadsL false ξ ks ks' := hk
      cases hk with
      | nil => exact ⟨rfl, h⟩
      | cons hc hl =>
        cases hl with
        | nil => exact ⟨rfl, h⟩
        | cons hb hl =>
          rename_i cnd cnd' bl bl' l l'
          obtain ⟨kb, asb, ss⟩ := bl
          obtain ⟨ss', rfl, hs, -⟩ := inv hb
          by_cases hkb : kb = .block
          · subst hkb
            have hw := wrapBlock_rel c hs
            cases hl with
            | nil =>
              simp only [visitIf]
              exact ⟨by rw [hw.1], .mk rfl (.cons hc (.cons (.mk rfl hw.2) .nil))⟩
            | cons he hl =>
              cases hl with
              | cons _ _ => simp only [visitIf]; exact ⟨rfl, h⟩
              | nil =>
                rename_i e e'
                have ihe := ih e (by simp) he
                simp only [visitIf]
                obtain ⟨ke, ase, kse⟩ := e
                obtain ⟨kse', rfl, hke, -⟩ := inv he
                simp only [Node.kind, Node.kids, Node.rawAttrs]
                cases ke <;> try exact ⟨by dsimp only; rw [hw.1], .mk rfl (.cons hc (.cons (.mk rfl hw.2) (.cons he .nil)))⟩
                case eBlock lb =>
                  dsimp only
                  have hw2 := wrapBlock_rel (wrapBlock c ss).1 hke
                  rw [hw.1]
                  exact ⟨hw2.1, .mk rfl (.cons hc (.cons (.mk rfl hw.2) (.cons (.mk rfl hw2.2) .nil)))⟩
                case eIf =>
                  dsimp only
                  have hw2 := ihe (wrapBlock c ss).1
                  rw [hw.1]
                  exact ⟨hw2.1, .mk rfl (.cons hc (.cons (.mk rfl hw.2) (.cons hw2.2 .nil)))⟩
          · have h1 : ∀ ss as ss', Node.mk kb asb ss ≠ .mk .block as ss' := by
              intro ss1 as1 ss2 he
              injection he with he
              exact hkb he
            rw [hbl _ _ _ _ _ (h1 _), hbl _ _ _ _ _ (h1 _)]
            exact ⟨rfl, h⟩
    · rw [hno _ c (by exact hif), hno n' c (by rw [kind h]; exact hif)]
      exact ⟨rfl, h⟩

theorem loopVisitL_of (label : Option String) {b : Bool} : ∀ {l l' : List Node}, PadsL b ξ l l' →
    (∀ n ∈ l, ∀ ξ n', Pads ξ n n' → ∀ (nst : Bool) (c : Cx), Rel ξ (loopVisit label nst c n) (loopVisit label nst c n')) →
    ∀ (nst : Bool) (c : Cx), RelL b ξ (loopVisitL label nst c l) (loopVisitL label nst c l') := by
  intro l l' hl hi nst c
  induction l' generalizing ξ l c with
  | nil => cases hl; exact ⟨rfl, .nil⟩
  | cons a l' ih =>
    cases hl with
    | cons hn hl =>
      rename_i n ns
      have h1 := hi n (by simp) _ _ hn nst c
      have h2 := ih hl (fun n hn => hi n (by simp [hn])) (loopVisit label nst c n).1
      simp only [loopVisitL]
      rw [h1.1]
      exact ⟨h2.1, .cons h1.2 h2.2⟩
    | add hs hl =>
      have h2 := ih hl hi c
      have h1 := still_loop label nst c (inert_still hs)
      have h3 : loopVisitL label nst c (a :: l') = ((loopVisitL label nst c l').1, a :: (loopVisitL label nst c l').2) := by
        rw [loopVisitL, h1]
      rw [h3]
      refine ⟨h2.1, ?_⟩
      have h4 := h2.2
      simp only [loopVisitL] at h4 ⊢
      exact .add hs h4

theorem loopVisit_rel (label : Option String) : ∀ {n n' : Node} {ξ : List Node}, Pads ξ n n' → ∀ (nested : Bool) (c : Cx),
    Rel ξ (loopVisit label nested c n) (loopVisit label nested c n') := by
  intro n
  induction n using Node.ind with
  | h k as ks ih =>
    intro n' ξ h nested c
    obtain ⟨ks', rfl, hk, ho⟩ := inv h
    have hL := fun nst => loopVisitL_of label hk (fun n hn ξ n' => ih n hn) nst c
    rw [loopVisit.eq_def _ _ c (.mk k as ks'), loopVisit.eq_def _ _ c (.mk k as ks)]
    dsimp only
    split
    · exact ⟨rfl, h⟩
    · rename_i hop
      have ha : ∀ l, argOk k l = true := argOk_open (by cases hk : k.isOpaque <;> simp_all)
      have hd : ∀ nst, Rel ξ ((loopVisitL label nst c ks).1, .mk k as (loopVisitL label nst c ks).2)
          ((loopVisitL label nst c ks').1, .mk k as (loopVisitL label nst c ks').2) :=
        fun nst => ⟨(hL nst).1, .mk (ha _) (hL nst).2⟩
      cases k <;> try exact hd _
      case eClosure i => exact ⟨rfl, h⟩
      case eAsync => exact ⟨rfl, h⟩
      case eLoop l =>
        dsimp only
        split
        · exact ⟨rfl, h⟩
        · exact hd _
      case eForLoop l p =>
        dsimp only
        split
        · exact ⟨rfl, h⟩
        · exact hd _
      case eWhile l =>
        dsimp only
        split
        · exact ⟨rfl, h⟩
        · exact hd _
      case eBreak l =>
        dsimp only
        split
        · have hk : PadsL false ξ ks ks' := hk
          cases hk with
          | nil => exact ⟨rfl, Pads.same⟩
          | cons hn hl =>
            simp only [isMarkerExpr_pads c hn]
            split
            · exact ⟨rfl, h⟩
            · have := ih _ (by simp) hn nested { c with variants := c.variants ++ [variantIdent c.variants.length] }
              exact ⟨this.1, .mk rfl (.cons (exprCall_pads _ _ this.2) hl)⟩
        · exact hd _

theorem loopVisitL_rel (label : Option String) {b : Bool} {l l' : List Node} (h : PadsL b ξ l l') (nst : Bool) (c : Cx) :
    RelL b ξ (loopVisitL label nst c l) (loopVisitL label nst c l') :=
  loopVisitL_of label h (fun _ _ _ _ hn => loopVisit_rel label hn) nst c

theorem mapA_rel {f g : Cx → Node → Cx × Node} (hfg : ∀ ξ c n n', Pads ξ n n' → Rel ξ (f c n) (g c n'))
    {b : Bool} (hq : b = true → ∀ c s, idleStmt s = true → g c s = (c, s)) :
    ∀ {ξ l l' : List Node}, PadsL b ξ l l' → ∀ c : Cx, RelL b ξ (mapA f c l) (mapA g c l') := by
  intro ξ l l' hl c
  induction l' generalizing ξ l c with
  | nil => cases hl; exact ⟨rfl, .nil⟩
  | cons a l' ih =>
    cases hl with
    | cons hn hl =>
      rename_i n ns
      have h1 := hfg _ c _ _ hn
      have h2 := ih hl (f c n).1
      simp only [mapA]
      rw [h1.1]
      exact ⟨h2.1, .cons h1.2 h2.2⟩
    | add hs hl =>
      have h2 := ih hl c
      have h3 : mapA g c (a :: l') = ((mapA g c l').1, a :: (mapA g c l').2) := by
        simp only [mapA, hq rfl c a hs]
      rw [h3]
      refine ⟨h2.1, ?_⟩
      have h4 := h2.2
      simp only [mapA] at h4 ⊢
      exact .add hs h4

theorem walk_rel {f g : Cx → Node → Cx × Node} (hfg : ∀ ξ c n n', Pads ξ n n' → Rel ξ (f c n) (g c n'))
    (hq : ∀ c s, idleStmt s = true → g c s = (c, s)) (c : Cx) {n n' : Node} (h : Pads ξ n n') :
    Rel ξ (walk f c n) (walk g c n') := by
  obtain ⟨k, as, ks⟩ := n
  obtain ⟨ks', rfl, hk, ho⟩ := inv h
  have := mapA_rel hfg (fun _ => hq) hk c
  rw [walk, walk]
  split
  · exact ⟨rfl, h⟩
  · rename_i hop
    exact ⟨this.1, .mk (argOk_open (by simpa using hop) _) this.2⟩

theorem childLast_append (c : Cx) (a : Node) : ∀ i : List Node,
    childLast c (i ++ [a]) = ((childLast c [a]).1, i ++ (childLast c [a]).2)
  | [] => rfl
  | [x] => by
    show childLast c [x, a] = _
    rw [childLast.eq_4]
    rfl
  | x :: y :: i => by
    have := childLast_append c a (y :: i)
    show childLast c (x :: y :: (i ++ [a])) = _
    rw [childLast.eq_4]
    have h2 : childLast c (y :: (i ++ [a])) = _ := this
    rw [h2]
    rfl

theorem childAll (c : Cx) : ∀ {n n' : Node} {ξ : List Node}, Pads ξ n n' → Rel ξ (childExpr c n) (childExpr c n') ∧
    (childLast c [n']).1 = (childLast c [n]).1 ∧ ∃ b b', (childLast c [n]).2 = [b] ∧ (childLast c [n']).2 = [b'] ∧
      Pads ξ b b' := by
  intro n
  induction n using Node.ind with
  | h k as ks ih =>
    intro n' ξ h
    have hu := isUnreachable_pads c h
    obtain ⟨ks', rfl, hk, ho⟩ := inv h
    have hlast : RelL k.isBlockLike ξ (childLast c ks) (childLast c ks') := by
      rcases lastOf hk with ⟨rfl, rfl, rfl⟩ | ⟨ζ, η, i, a, i', a', rfl, rfl, rfl, ha, hx⟩
      · exact ⟨rfl, hk⟩
      · rw [childLast_append, childLast_append]
        obtain ⟨h1, b, b', hb, hb', h2⟩ := (ih a (by simp) ha).2
        refine ⟨h1, ?_⟩
        dsimp only
        rw [hb, hb']
        exact hx _ b b' h2
    constructor
    · rw [childExpr.eq_def c (.mk k as ks'), childExpr.eq_def c (.mk k as ks)]
      dsimp only
      rw [hu]
      split
      · exact ⟨rfl, h⟩
      · cases k <;> try exact ⟨rfl, h⟩
        case eBlock l => exact ⟨hlast.1, .mk rfl hlast.2⟩
        case eUnsafe => exact ⟨hlast.1, .mk rfl hlast.2⟩
        case eMatch =>
          have hk : PadsL false ξ ks ks' := hk
          cases hk with
          | nil => exact ⟨rfl, h⟩
          | cons hn hl =>
            have := mapA_rel (fun ξ c n n' => wrapArm_rel c) (fun h => by cases h) hl c
            exact ⟨this.1, .mk rfl (.cons hn this.2)⟩
        case eIf => exact visitIf_rel h c
        case eLoop =>
          rename_i lb _
          have := loopVisitL_rel lb hk false c
          exact ⟨this.1, .mk rfl this.2⟩
        case eMethodCall m =>
          have hk : PadsL false ξ ks ks' := hk
          cases hk with
          | nil => exact ⟨rfl, h⟩
          | cons hn hl =>
            have := (ih _ (by simp) hn).1
            exact ⟨this.1, .mk rfl (.cons this.2 hl)⟩
        case eParen =>
          have hk : PadsL false ξ ks ks' := hk
          cases hk with
          | nil => exact ⟨rfl, h⟩
          | cons hn hl =>
            cases hl with
            | nil =>
              have := (ih _ (by simp) hn).1
              exact ⟨this.1, .mk rfl (.cons this.2 .nil)⟩
            | cons _ _ => exact ⟨rfl, h⟩
    · have hd : True ∧ ∃ b b', [Node.mk k as ks] = [b] ∧ [Node.mk k as ks'] = [b'] ∧ Pads ξ b b' :=
        ⟨trivial, _, _, rfl, rfl, h⟩
      cases k <;> try (simp only [childLast]; exact hd)
      case sExpr semi =>
        cases semi
        · have hk : PadsL false ξ ks ks' := hk
          cases hk with
          | nil => simp only [childLast]; exact hd
          | cons hn hl =>
            cases hl with
            | nil =>
              have := (ih _ (by simp) hn).1
              simp only [childLast]
              exact ⟨this.1, _, _, rfl, rfl, .mk rfl (.cons this.2 .nil)⟩
            | cons _ _ => simp only [childLast]; exact hd
        · simp only [childLast]; exact hd

theorem childExpr_rel (c : Cx) {n n' : Node} (h : Pads ξ n n') : Rel ξ (childExpr c n) (childExpr c n') := (childAll c h).1

theorem childLast_rel (c : Cx) {l l' : List Node} (h : PadsL true ξ l l') :
    RelL true ξ (childLast c l) (childLast c l') := by
  rcases lastOf h with ⟨rfl, rfl, rfl⟩ | ⟨ζ, η, i, a, i', a', rfl, rfl, rfl, ha, hx⟩
  · exact ⟨rfl, h⟩
  · rw [childLast_append, childLast_append]
    obtain ⟨h1, b, b', hb, hb', h2⟩ := (childAll c ha).2
    refine ⟨h1, ?_⟩
    dsimp only
    rw [hb, hb']
    exact hx _ b b' h2

theorem fnCount_pads (c : Cx) : ∀ {n n' : Node} {ξ : List Node}, Pads ξ n n' → ∀ cl : Bool, fnCount c cl n' = fnCount c cl n := by
  intro n
  induction n using Node.ind with
  | h k as ks ih =>
    intro n' ξ h cl
    obtain ⟨ks', rfl, hk, ho⟩ := inv h
    have hL : ∀ (b : Bool) (ξ l l' : List Node), (∀ n ∈ l, n ∈ ks) → PadsL b ξ l l' → ∀ cl,
        fnCountL c cl l' = fnCountL c cl l := by
      intro b ξ l l' hm hl cl
      induction l' generalizing ξ l with
      | nil => cases hl; rfl
      | cons a l' ihl =>
        cases hl with
        | cons hn hl =>
          rw [fnCountL, fnCountL, ih _ (hm _ (by simp)) hn, ihl _ _ (fun n hn => hm n (by simp [hn])) hl]
        | add hs hl =>
          have : still cl a = true := still_weaken (inert_still hs)
          rw [fnCountL, still_count c cl this, ihl _ _ hm hl]
          simp [FnCount.add]
    have hh : ∀ b, fnCountHere c b as k ks' = fnCountHere c b as k ks := by
      intro b
      cases k <;> try rfl
      case eTry =>
        have hk : PadsL false ξ ks ks' := hk
        cases hk with
        | nil => rfl
        | cons hn hl => simp only [fnCountHere, isMarkerExpr_pads c hn]
      case eReturn =>
        have hk : PadsL false ξ ks ks' := hk
        cases hk with
        | nil => rfl
        | cons hn hl => simp only [fnCountHere, isMarkerExpr_pads c hn]
    rw [fnCount.eq_def c, fnCount.eq_def c]
    dsimp only
    rw [hh, hL _ _ _ _ (fun _ h => h) hk]

end Pad

end AutoEnums
