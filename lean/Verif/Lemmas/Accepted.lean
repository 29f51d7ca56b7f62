import Verif.Lemmas.Reach

/-! # Successful expansions and what is known about them -/

namespace AutoEnums

open Spec

/-- `#[auto_enum(traits.., marker = m)]` on the expression, statement or function `n` is expanded to
`out`, and the generated enum is named `en`.  There is at least one trait. -/
structure Accepted (env : Env) (traits : List Path) (en : Ident) (m : String) (n out : Node) : Prop where
  some : traits ≠ []
  run : ∃ fuel h toks marker input, IsArgs toks traits marker ∧ en = "__Enum" ++ toString h ∧
    m = marker.getD "marker" ∧
    (input = .expr n ∧ isExprNode n = true ∨ input = .stmt n ∧ isExprNode n = false) ∧
    autoEnum env fuel h toks input = .code out

/-- An ordinary input without inner attributes that does not mention the generated enum. -/
structure Simple (en : Ident) (m : String) (n : Node) : Prop where
  ordinary : ordinary en m n = true
  inner : ∀ a ∈ allAttrs n, named "auto_enum" a = false
  fresh : ctors en n = 0

/-- The value of the input `n` is that of a `match`, `if` or `loop` whose branches are to be wrapped:
the attribute wraps branches (and does not desugar `?`), and that expression is not skipped. -/
structure Branches (en : Ident) (m : String) (n r : Node) : Prop where
  job : (jobOf en m n).branches = true
  result : resultOf (startOf n) = r
  branching : isBranching r.kind = true
  counts : diverges m (startOf n) = false

/-- The same for inputs that may have inner attributes: there is none on the way to that expression. -/
structure Branches' (en : Ident) (m : String) (n r : Node) : Prop where
  shaped : shaped n = true
  job : (jobOf en m n).branches = true
  result : resultOf (startOf n) = r
  branching : isBranching r.kind = true
  counts : exempt m (startOf n) = false
  clear : clearWay (startOf n) = true

variable {env : Env} {traits : List Path} {en : Ident} {m : String} {n out r : Node}

theorem Accepted.treated (h : Accepted env traits en m n out) (hs : Simple en m n) :
    ∃ n', Alike en n' (retype env.typeAnalysis traits (treatInput en m n)) ∧
      2 ≤ ctors en (treatInput en m n) ∧
      out = placeEnum (enumDecl en (ctors en (treatInput en m n))
        (traits ++ inferredFor env.typeAnalysis traits n)) n' := by
  obtain ⟨fuel, g, toks, marker, input, h1, h2, h3, h4, h5⟩ := h.run
  exact C03_accepted env fuel g toks traits marker h1 h.some en h2 m h3 input n out h4 hs.ordinary
    hs.inner hs.fresh h5

/-- The tree is the treatment of `n`, up to the names of the variants, possibly with the declaration of an
enum in front. -/
def Treats (analysis : Bool) (traits : List Path) (en : Ident) (m : String) (n out : Node) : Prop :=
  ∃ n', Alike en n' (retype analysis traits (treatInput en m n)) ∧
    (out = n' ∨ ∃ k ds, out = placeEnum (enumDecl en k ds) n')

theorem Accepted.treats (h : Accepted env traits en m n out) (hs : Simple en m n) :
    Treats env.typeAnalysis traits en m n out := by
  obtain ⟨n', h1, _, h2⟩ := h.treated hs
  exact ⟨n', h1, .inr ⟨_, _, h2⟩⟩

theorem treatInput_local (h : ordinary en m n = true) :
    ∀ p as, treatInput en m n ≠ .mk (.sLocal p) as [] := by
  intro p as
  unfold ordinary at h
  unfold treatInput
  split at h
  · simp
  · simp
  · simp
  · simp only [Bool.and_eq_true] at h
    have := isExprNode_treatExpr (en := en) (m := m) (semi := false) h.1
    intro he
    rw [he] at this
    cases this

/-- What becomes of the expression in result position. -/
theorem Treats.result {b : Bool} (h : Treats b traits en m n out) (hs : Simple en m n)
    (hb : Branches en m n r) :
    ∃ ts, noneOurs ts ∧ Alike en (resultIn out) (treat (jobOf en m n) {} ts .result r) := by
  obtain ⟨n', h1, ho⟩ := h
  have ho : resultIn out = resultIn n' := by
    rcases ho with rfl | ⟨k, ds, rfl⟩
    · rfl
    · exact resultIn_placeEnum _ _ _ _
  obtain ⟨ts, h2, h3⟩ := resultIn_treatInput hs.ordinary hb.job hb.counts
    (by rw [hb.result]; exact hb.branching)
  refine ⟨ts, h2, ?_⟩
  rw [ho]
  rw [hb.result] at h3
  rw [← h3, ← resultIn_retype b traits _ (treatInput_local hs.ordinary)]
  exact resultIn_alike h1

theorem Accepted.reached (h : Accepted env traits en m n out) (hb : Branches' en m n r) :
    Reached env en m r (resultIn out) := by
  obtain ⟨fuel, g, toks, marker, input, h1, h2, h3, h4, h5⟩ := h.run
  have := AutoEnums.reached h1 h.some h4 h2 h3 h5 hb.shaped hb.job
    (by rw [hb.result]; exact hb.branching) hb.counts hb.clear
  rw [hb.result] at this
  exact this

end AutoEnums
