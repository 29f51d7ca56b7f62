import Verif.Lemmas.SettledRun
import Verif.Props.C15
import Verif.Props.C16

/-! # C71: an expansion leaves nothing to expand -/

namespace AutoEnums

open Spec

/-- The output at the place of the input. -/
def Spec.again (out : Node) : Input → Input
  | .stmt _ => .stmt out
  | .expr _ => .expr out
  | .invalid => .invalid

/-! ## The visitor of an attribute without arguments -/

theorem mapA_child {f : Cx → Node → Cx × Node} {l : List Node}
    (h : ∀ c ∈ l, ∀ cx, ∃ b, f cx c = ({ cx with hasChild := b }, c)) :
    ∀ cx, ∃ b, mapA f cx l = ({ cx with hasChild := b }, l) := by
  induction l with
  | nil => exact fun cx => ⟨cx.hasChild, rfl⟩
  | cons c l ih =>
    intro cx
    obtain ⟨b, hb⟩ := h c (by simp) cx
    obtain ⟨b', hb'⟩ := ih (fun c hc => h c (by simp [hc])) { cx with hasChild := b }
    exact ⟨b', by simp only [mapA, hb, hb']⟩

theorem walk_child {f : Cx → Node → Cx × Node} {n : Node}
    (h : ∀ c ∈ n.sub, ∀ cx, ∃ b, f cx c = ({ cx with hasChild := b }, c)) (cx : Cx) :
    ∃ b, walk f cx n = ({ cx with hasChild := b }, n) := by
  cases n with
  | mk k as ks =>
    simp only [walk]
    split
    · exact ⟨cx.hasChild, rfl⟩
    · rename_i ho
      obtain ⟨b, hb⟩ := mapA_child (l := ks) (fun c hc => h c (by simpa [Node.sub, ho] using hc)) cx
      exact ⟨b, by rw [hb]⟩

theorem settled_attr {n : Node} (h : Throughout Settled n) (hl : looked n.kind = true) :
    n.findRemoveAttr NAME = none := by
  cases hf : n.findRemoveAttr NAME with
  | none => rfl
  | some r =>
    obtain ⟨a, n'⟩ := r
    obtain ⟨_, h1, _, l1, l2, h2, _⟩ := Node.findRemoveAttr_some hf
    have := h.top.none hl a (by rw [h2]; simp)
    rw [named_iff] at this
    rw [show a.is "auto_enum" = true from h1] at this
    cases this

theorem verbatim_attr {n : Node} {t : String} (h : n.kind = .eVerbatim t) : n.findRemoveAttr NAME = none := by
  cases n with
  | mk k as ks => simp only [Node.kind] at h; subst h; rfl

theorem settled_expr {n : Node} (h : Throughout Settled n) (hk : n.kind.isExpr = true) :
    n.findRemoveAttr NAME = none := by
  rcases isExpr_kind hk with h1 | ⟨t, h1⟩
  · exact settled_attr h (isExpr_looked hk (carries_hasAttrs (k := n.kind) (by
      revert h1; cases n.kind <;> simp [isExpression, carries])))
  · exact verbatim_attr h1

theorem settled_still (env : Env) : ∀ f sc cx n, Throughout Settled n →
    ∃ b, visitB env false f .dummy sc cx n = ({ cx with hasChild := b }, n) := by
  intro f
  induction f with
  | zero => exact fun sc cx n _ => ⟨cx.hasChild, rfl⟩
  | succ f ih =>
    intro sc cx n h
    have hw : ∀ n, Throughout Settled n → ∀ cx,
        ∃ b, walk (visitB env false f .dummy sc) cx n = ({ cx with hasChild := b }, n) := fun n h cx =>
      walk_child (fun c hc cx => ih sc cx c (h.below c hc)) cx
    have hwe : ∀ e, Throughout Settled e → e.kind.isExpr = true → ∀ s cx,
        ∃ b, vsVisitExpr env (visitB env false f) .dummy sc cx e s = ({ cx with hasChild := b }, e) := by
      intro e he hk s cx
      simp only [vsVisitExpr, settled_expr he hk]
      exact hw e he cx
    simp only [visitB, step, dummyStep]
    have hseen : ∀ b, ∃ b', (if b = true then { cx with hasChild := true } else cx) = { cx with hasChild := b' } := by
      intro b; cases b
      · exact ⟨cx.hasChild, rfl⟩
      · exact ⟨true, rfl⟩
    obtain ⟨b', hb'⟩ := hseen (n.anyAttr NAME)
    rw [hb']
    split
    · rename_i hk
      split
      · exact ⟨cx.hasChild, rfl⟩
      · obtain ⟨b, hb⟩ := hwe n h hk false { cx with hasChild := b' }
        exact ⟨b, hb⟩
    · split
      · split
        · exact ⟨cx.hasChild, rfl⟩
        · unfold vsVisitStmt
          split
          · rename_i semi as e _ _
            rw [Throughout.open rfl] at h
            obtain ⟨k', h1, h2⟩ := h.1.stmt semi rfl
            simp only [List.map_cons, List.map_nil, List.cons.injEq, and_true] at h1
            obtain ⟨b, hb⟩ := hwe e (h.2 e (by simp)) (by rw [h1]; exact exprKind_isExpr h2) semi { cx with hasChild := b' }
            exact ⟨b, by rw [hb]⟩
          · rw [settled_attr h rfl]
            exact hw _ h { cx with hasChild := b' }
          · exact ⟨b', rfl⟩
      · exact hw n h cx

/-- As `C16`, with the attribute forbidden only where it is looked at. -/
theorem settled_fixed (env : Env) (h : Nat) (toks : List Tok) (input : Input) (n : Node) (m : Option String)
    (hargs : IsArgs toks [] m) (hin : target input = some n) (hinf : inferredFor env.typeAnalysis [] n = [])
    (he : ∀ e, input = .expr e → Throughout Settled e)
    (hs : ∀ s, input = .stmt s → ∀ c ∈ s.kids, Throughout Settled c) :
    ∃ F, ∀ f, F ≤ f → autoEnum env f h toks input = .code n := by
  obtain ⟨cx, hcx, ha, htr, hp, her⟩ : ∃ cx, Cx.new h toks true [] [] = .ok cx ∧ cx.args = [] ∧
      cx.traits = [] ∧ cx.panics = [] ∧ cx.errs = [] := by
    unfold Cx.new
    rw [(parseArgs_iff toks [] m).mpr hargs]
    cases m <;> exact ⟨_, rfl, rfl, rfl, rfl, rfl⟩
  have hfr := new_fresh hcx
  obtain ⟨F, r, hF⟩ := expandInput_conv (env := env) hcx input
  have hd : ∀ cx : Cx, cx.args = [] → cx.traits = [] → cx.isDummy = true := by
    intro cx h1 h2; simp [Cx.isDummy, h1, h2]
  have has : ∀ cx : Cx, cx.args = [] → cx.assert cx.args.isEmpty .dummyArgs = cx := by
    intro cx h1; simp [Cx.assert, h1]
  have hexpr : ∀ f e b, Throughout Settled e →
      (expandParentExpr env (visitB env false f) cx e b).2 = e ∧
      (expandParentExpr env (visitB env false f) cx e b).1.panics = [] ∧
      (expandParentExpr env (visitB env false f) cx e b).1.errs = [] := by
    intro f e b hne
    unfold expandParentExpr
    dsimp only
    generalize hcx1 : (if b = true then { cx with lastMode := .never } else cx) = cx1
    have h1 : cx1.args = [] ∧ cx1.traits = [] ∧ cx1.panics = [] ∧ cx1.errs = [] := by
      subst hcx1; split <;> exact ⟨ha, htr, hp, her⟩
    rw [if_pos (hd cx1 h1.1 h1.2.1)]
    unfold dummyExpr
    rw [has cx1 h1.1]
    obtain ⟨b, hb⟩ := settled_still env f {} cx1 e hne
    rw [hb]
    exact ⟨rfl, h1.2.2⟩
  have hkids : ∀ (cx : Cx) (m : Node), cx.args = [] → cx.panics = [] → cx.errs = [] →
      (∀ c ∈ m.kids, Throughout Settled c) →
      ∀ f, (dummyWalk (visitB env false f) cx m).2 = m ∧ (dummyWalk (visitB env false f) cx m).1.panics = [] ∧
        (dummyWalk (visitB env false f) cx m).1.errs = [] := by
    intro cx m ha hp he hm f
    unfold dummyWalk
    rw [has cx ha]
    have hsub : ∀ c ∈ m.sub, c ∈ m.kids := by
      cases m with
      | mk k as ks =>
        intro c hc
        unfold Node.sub at hc
        dsimp only at hc
        split at hc
        · simp at hc
        · exact hc
    obtain ⟨b, hb⟩ := walk_child (n := m) (f := visitB env false f .dummy {})
      (fun c hc cx => settled_still env f _ cx c (hm c (hsub c hc))) cx
    rw [hb]
    exact ⟨rfl, hp, he⟩
  have key : ∃ r', r = some r' ∧ r'.2 = n ∧ r'.1.panics = [] ∧ r'.1.errs = [] := by
    obtain ⟨_, h2, h3⟩ := hF F (Nat.le_refl _)
    unfold target at hin
    split at hin
    · injection hin with hin
      subst hin
      exact ⟨_, h3 _ rfl, hexpr F _ false (he _ rfl)⟩
    · rename_i b as e _
      injection hin with hin
      subst hin
      refine ⟨_, h2 _ rfl, ?_⟩
      obtain ⟨g1, g2, g3⟩ := hexpr F e b (hs _ rfl e (by simp [Node.kids]))
      simp only [expandParentStmt]
      exact ⟨by rw [g1], g2, g3⟩
    · rename_i p as ks _
      injection hin with hin
      subst hin
      refine ⟨_, h2 _ rfl, ?_⟩
      obtain ⟨l1, l2, _⟩ := localAnalysis_traits (env := env) hfr p as ks
      rw [ha] at l1 l2
      have hfa : ∃ ts, (localAnalysis env cx p).1 = { cx with traits := ts } := by
        unfold localAnalysis
        split
        · split <;> exact ⟨_, rfl⟩
        · exact ⟨_, rfl⟩
      have hrt : retype env.typeAnalysis [] (.mk (.sLocal p) as ks) = .mk (.sLocal p) as ks := by
        unfold retype
        split
        · rename_i heq
          cases heq
          rw [if_neg]
          rintro ⟨h1, h2⟩
          exact h2 (by simpa [inferredFor, annotationOf, h1] using hinf)
        · rfl
      obtain ⟨ts, hfa⟩ := hfa
      rw [hinf, hfa] at l1
      cases l1
      rw [hrt] at l2
      simp only [expandParentStmt, expandParentLocal]
      rw [l2, hfa, if_pos (hd { cx with traits := [] } ha rfl)]
      exact hkids { cx with traits := [] } _ ha hp her (hs _ rfl) F
    · rename_i name ret as asb ss _
      injection hin with hin
      subst hin
      refine ⟨_, h2 _ rfl, ?_⟩
      simp only [expandParentStmt, expandParentFn]
      have hfa : ∃ m ts, fnAnalysis env cx ret (.mk .block asb ss) =
          { cx with mode := m, traits := ts } := by
        unfold fnAnalysis
        cases ret with
        | none => exact ⟨cx.mode, cx.traits, rfl⟩
        | some ty => dsimp only; split <;> exact ⟨_, _, rfl⟩
      obtain ⟨l1, _⟩ := fnAnalysis_traits (env := env) hfr name ret as [.mk .block asb ss]
        (.mk .block asb ss)
      obtain ⟨m, ts, hfa⟩ := hfa
      rw [ha, hinf, hfa] at l1
      cases l1
      rw [hfa, if_pos (hd { cx with mode := m, traits := [] } ha rfl)]
      exact hkids { cx with mode := m, traits := [] } _ ha hp her (hs _ rfl) F
    · cases hin
  obtain ⟨r', rfl, h1, h2, h3⟩ := key
  refine ⟨F, fun f hf => ?_⟩
  simp only [autoEnum, hcx, (hF f hf).1, finish, h2, h3, List.isEmpty_nil, if_true, h1]

theorem onStmt_target {env : Env} {cx cx' : Cx} {n n' : Node} (h : Run env (.onStmt cx n cx' n'))
    (hn : target (.stmt n) = some n) : target (.stmt n') = some n' := by
  cases h with
  | stmtExpr _ => rfl
  | stmtLocalDummy _ _ _ => rfl
  | stmtLocal _ _ _ => rfl
  | stmtFnDummy _ _ hr =>
    cases hr with
    | cons h1 h2 => obtain ⟨ks', rfl⟩ := (Run.shape h1).2 rfl; rfl
  | stmtFnExit _ _ _ _ _ hr =>
    cases hr with
    | cons h1 h2 => obtain ⟨ks', rfl⟩ := (Run.shape h1).2 rfl; rfl
  | stmtFn _ _ _ _ _ hr _ =>
    cases hr with
    | cons h1 h2 =>
      obtain ⟨ks', rfl⟩ := (Run.shape h1).2 rfl
      unfold builtFn
      split <;> rfl
  | stmtInert _ _ _ _ _ => exact hn

/-- C71: if an attribute, with or without arguments, has been expanded successfully, then an attribute without
arguments at the same place leaves the result as it is: no inner attribute is waiting in it.

No `let` or closure in the input may have two `auto_enum` attributes, and there must be no further one on an
attributed closure or in the `else` of an attributed `let`: these are not looked at (see the examples).  As always with
attributes without arguments, no trait may be inferred from a type. -/
theorem C71 (env env' : Env) (fuel g g' : Nat) (toks toks' : List Tok) (input : Input) (n out : Node)
    (m : Option String) (h : autoEnum env fuel g toks input = .code out)
    (hin : target input = some n) (hn : isTarget n = true) (hexpr : input = .expr n → isExprNode n = true)
    (hc : ∀ i as b, targetOf n = .mk (.eClosure i) as [b] → ∀ a ∈ as, named "auto_enum" a = false)
    (hlet : ∀ p as e els, n = .mk (.sLocal p) as (e :: els) → ∀ c ∈ els, Throughout Settled c)
    (honce : Throughout Once (targetOf n))
    (hargs : IsArgs toks' [] m) (hinf : inferredFor env'.typeAnalysis [] out = []) :
    ∃ F, ∀ f, F ≤ f → autoEnum env' f g' toks' (again out input) = .code out := by
  obtain ⟨cx, cx', _, _, _, hr⟩ := code_run h
  rcases hr with ⟨n', rfl, hr⟩ | ⟨n', rfl, hr⟩
  · have hnn : n' = n := by
      unfold target at hin
      split at hin <;> simp_all
    subst hnn
    have ht : Annotated n' ∧ (∀ c ∈ n'.kids, Throughout Once c) ∧
        ∀ p, n'.kind = .sLocal p → ∀ c ∈ n'.kids.tail, Throughout Settled c := by
      unfold target at hin
      split at hin
      · rename_i heq; cases heq
      · rename_i b as e heq
        cases heq
        refine ⟨.inl ⟨_, _, _, rfl, by rw [← isExprNode_eq']; exact hn⟩, ?_, by simp [Node.kind]⟩
        simp only [Node.kids, List.mem_singleton, forall_eq]
        exact honce
      · rename_i p as ks heq
        cases heq
        cases ks with
        | nil => exact ⟨.inr (.inl ⟨_, _, _, rfl, by simp⟩), by simp [Node.kids], by simp [Node.kids]⟩
        | cons e els =>
          refine ⟨.inr (.inl ⟨_, _, _, rfl, ?_⟩), ?_, fun _ _ => hlet _ _ _ _ rfl⟩
          · simp only [List.head?_cons, Option.mem_def, Option.some.injEq, forall_eq']
            rw [← isExprNode_eq']; exact hn
          · simp only [Node.kids, List.mem_cons, forall_eq_or_imp]
            exact ⟨honce, fun c hc => settled_once (hlet _ _ _ _ rfl c hc)⟩
      · rename_i nm ret as asb ss heq
        cases heq
        refine ⟨.inr (.inr ⟨_, _, _, _, _, rfl⟩), ?_, by simp [Node.kind]⟩
        simp only [Node.kids, List.mem_singleton, forall_eq]
        rw [show targetOf (.mk (.iFn nm ret) as [.mk .block asb ss]) = .mk (.eBlock none) [] ss from rfl,
          Throughout.open rfl] at honce
        rw [Throughout.open rfl]
        exact ⟨once_lax.bare _ _ _ ⟨fun h => by simp [carries, isExpression] at h, by simp [StmtOk]⟩, honce.2⟩
      · cases hin
    obtain ⟨g1, g2, g3⟩ := Run.settles hr ht.1 hc ht.2.1 ht.2.2
    refine settled_fixed env' g' toks' (.stmt out) out m hargs (onStmt_target hr hin) hinf (by simp)
      (by rintro _ ⟨⟩; exact g1)
  · cases hin
    have he : n.kind.isExpr = true := by rw [← isExprNode_eq']; exact hexpr rfl
    have ht : targetOf n = n := by
      cases n with | mk k as ks => cases k <;> first | rfl | (simp [Kind.isExpr, Node.kind] at he; done)
    rw [ht] at hc honce
    exact settled_fixed env' g' toks' (.expr out) out m hargs rfl hinf
      (by rintro _ ⟨⟩; exact Run.settles hr he hc honce) (by simp)

/-- `let x: impl Iterator = if c { 1 } else { 3 };` -/
def Ex.typed71 : Node := .mk (.sLocal (.typed "x" Ex.implIter)) [] [Ex.cond [] (Ex.lit "1")]

theorem Ex.neat_once {n : Node} (h : Throughout Neat n) : Throughout Once n :=
  Throughout.imp (fun _ _ _ h => ⟨fun hl => h.once (looked_carries (aside_looked hl)) _ (by simp),
    fun p hp ⟨a, ha, hn⟩ => by
      subst hp
      exact ((h.inner rfl a ha hn).noElse p rfl).2, h.stmt⟩) n h

/-- The hypotheses are met by `Ex.untidy`, which has an inner attribute. -/
example : ∃ out, autoEnum Ex.env 20 5 Ex.iterator (.expr Ex.untidy) = .code out ∧ out ≠ Ex.untidy ∧
    ∃ F, ∀ f, F ≤ f → autoEnum Ex.env f 7 [] (.expr out) = .code out := by
  obtain ⟨out, h, ho⟩ := Ex.of_check (o := autoEnum Ex.env 20 5 Ex.iterator (.expr Ex.untidy))
    (p := fun o => decide (o ≠ Ex.untidy ∧ inferredFor Ex.env.typeAnalysis [] o = [])) (by decide +kernel)
  exact ⟨out, h, (of_decide_eq_true ho).1, C71 Ex.env Ex.env 20 5 7 Ex.iterator [] (.expr Ex.untidy) Ex.untidy out none h rfl rfl
    (fun _ => rfl) (fun i as b h => by cases h) (fun p as e els h => by cases h)
    (Ex.neat_once (Ex.isNeat_sound _ (by decide +kernel))) ((parseArgs_iff _ _ _).mp rfl) (of_decide_eq_true ho).2⟩

/-- Under type analysis the expansion of `let x: impl Iterator = if c { 1 } else { 2 };` has no type left from
which a trait could be inferred again. -/
example : ∃ out, autoEnum Ex.taEnv 20 5 [] (.stmt Ex.typed71) = .code out ∧
    ∃ F, ∀ f, F ≤ f → autoEnum Ex.taEnv f 7 [] (.stmt out) = .code out := by
  obtain ⟨out, h, ho⟩ := Ex.of_check (o := autoEnum Ex.taEnv 20 5 [] (.stmt Ex.typed71))
    (p := fun o => decide (inferredFor Ex.taEnv.typeAnalysis [] o = [])) (by decide +kernel)
  exact ⟨out, h, C71 Ex.taEnv Ex.taEnv 20 5 7 [] [] (.stmt Ex.typed71) Ex.typed71 out none h rfl rfl
    (fun h => by cases h) (fun i as b h => by cases h) (fun p as e els h => by cases h; simp)
    (Ex.neat_once (Ex.isNeat_sound _ (by decide +kernel))) ((parseArgs_iff _ _ _).mp rfl) (of_decide_eq_true ho)⟩

/-- `match x { 0 => 1, 1 => 2, _ => f({ #[auto_enum(Iterator)] #[auto_enum(Iterator)] let y = if c { 2 } else { 3 }; y }) }`:
the second of two attributes on a `let` is left over, and the next attribute expands it. -/
example : let e := Ex.around (Ex.call "f" [exprBlock [.mk (.sLocal (.plain "y")) [Ex.inner, Ex.inner]
      [Ex.cond [] (Ex.lit "2")], tailS (Ex.var "y")]])
    (match autoEnum Ex.env 20 5 Ex.iterator (.expr e) with
      | .code out => Ex.leftover "auto_enum" (fun k => k matches .sLocal _) out &&
          !(autoEnum Ex.env 20 5 [] (.expr out) == .code out)
      | _ => false) = true := by decide +kernel

/-- So is an attribute in the `else` of an attributed `let`. -/
example : let n : Node := .mk (.sLocal (.plain "x")) [] [Ex.cond [] (Ex.lit "2"),
      exprBlock [tailS (Ex.cond [Ex.inner] (Ex.lit "2"))]]
    (match autoEnum Ex.env 20 5 Ex.iterator (.stmt n) with
      | .code out => !(autoEnum Ex.env 20 5 [] (.stmt out) == .code out)
      | _ => false) = true := by decide +kernel

/-- So is an attribute on an attributed closure. -/
example : let n : Node := .mk (.eClosure "") [Ex.inner] [Ex.cond [] (Ex.lit "2")]
    (match autoEnum Ex.env 20 5 Ex.iterator (.expr n) with
      | .code out => Ex.leftover "auto_enum" (fun k => k matches .eClosure _) out
      | _ => false) = true := by decide +kernel

end AutoEnums
