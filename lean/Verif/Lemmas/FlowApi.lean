import Verif.Lemmas.FlowRun
import Verif.Lemmas.Args

/-! # `return`s and `?`s of an attributed function or closure -/

namespace AutoEnums

open Judg Spec

/-! ## Counting -/

theorem pathEq_result (p : Path) :
    pathEq p ["std", "core"] ["result", "Result"] = true ↔ IsResult p := by
  unfold pathEq IsResult
  dsimp only
  generalize p.segs.map (·.ident) = ids
  match ids with
  | [] => simp
  | [a] => simp
  | [a, b] => simp
  | [a, b, c] => simp; grind
  | a :: b :: c :: d :: l => simp

theorem ourCount_append (x : ExitKind) (m : String) (a b : List Exit) :
    ourCount x m (a ++ b) = ourCount x m a + ourCount x m b := by
  simp [ourCount]

theorem ourCount_one (x : ExitKind) (m : String) (a : Exit) :
    ourCount x m [a] = if a.kind = x ∧ a.ours m = true then 1 else 0 := by
  simp only [ourCount, List.filter_cons, List.filter_nil]
  by_cases h : a.kind = x ∧ a.ours m = true
  · rw [if_pos h]; simp [h.1, h.2]
  · rw [if_neg h, if_neg (by simpa using h)]; rfl

theorem ourCount_zero {x : ExitKind} {m : String} {l : List Exit}
    (h : ∀ a ∈ l, a.loc.closure = true ∨ a.loc.tokens = true) : ourCount x m l = 0 := by
  unfold ourCount
  rw [List.length_eq_zero_iff, List.filter_eq_nil_iff]
  intro a ha
  rcases h a ha with h | h <;> simp [Exit.ours, h]

theorem fnCount_closure (cx : Cx) : ∀ n, fnCount cx true n = {} := by
  intro n
  induction n using Node.ind with
  | h k as ks ih =>
    have hk : (Scope.check { closure := true } k).closure = true := by cases k <;> rfl
    have hl : ∀ l : List Node, (∀ c ∈ l, c ∈ ks) → fnCountL cx true l = {} := by
      intro l
      induction l with
      | nil => intro _; unfold fnCountL; rfl
      | cons a l ihl =>
        intro hm
        unfold fnCountL
        rw [ih a (hm a (by simp)), ihl fun c hc => hm c (by simp [hc])]
        rfl
    unfold fnCount
    dsimp only
    rw [hk, hl ks fun _ h => h]
    have : fnCountHere cx true as k ks = {} := by
      unfold fnCountHere
      split <;> simp
    simp [this, FnCount.add]

/-- What `visit_fn` counts. -/
theorem fnCount_exits {cx : Cx} (hr : cx.root = true) (cl : Bool) : ∀ (n : Node) (w : Where),
    shaped n = true → w.closure = false → w.tokens = false →
    (fnCount cx false n).return_ = ourCount .ret cx.marker (exits cl w n) ∧
    (fnCount cx false n).try_ = ourCount .try_ cx.marker (exits cl w n) := by
  intro n
  induction n using Node.ind with
  | h k as ks ih =>
    intro w hs hw ht
    have hsl : shapedL ks = true := by
      unfold shaped at hs
      simp only [Bool.and_eq_true] at hs
      exact hs.2
    have hl : ∀ (w : Where), w.closure = false → w.tokens = false → ∀ l : List Node,
        (∀ c ∈ l, c ∈ ks) → shapedL l = true →
        (fnCountL cx false l).return_ = ourCount .ret cx.marker (exitsL cl w l) ∧
        (fnCountL cx false l).try_ = ourCount .try_ cx.marker (exitsL cl w l) := by
      intro w hw ht l
      induction l with
      | nil => intro _ _; unfold fnCountL exitsL; exact ⟨rfl, rfl⟩
      | cons a l ihl =>
        intro hm hsh
        unfold shapedL at hsh
        simp only [Bool.and_eq_true] at hsh
        unfold fnCountL exitsL
        obtain ⟨h1, h2⟩ := ih a (hm a (by simp)) w hsh.1 hw ht
        obtain ⟨h3, h4⟩ := ihl (fun c hc => hm c (by simp [hc])) hsh.2
        simp only [FnCount.add, ourCount_append, h1, h2, h3, h4, and_self]
    cases k with
    | eClosure i =>
      unfold fnCount
      have : fnCountL cx true ks = {} := by
        clear ih hs hsl hl
        induction ks with
        | nil => unfold fnCountL; rfl
        | cons a l ihl => unfold fnCountL; rw [fnCount_closure, ihl]; rfl
      have hz : ∀ x, ourCount x cx.marker (exits cl w (.mk (.eClosure i) as ks)) = 0 := by
        intro x
        refine ourCount_zero fun a ha => .inl ?_
        unfold exits at ha
        split at ha
        · simp at ha
        · simp only [reduceCtorEq, if_false, List.nil_append, List.append_nil] at ha
          exact (exitsL_loc_mono cl _ ks).1 rfl a ha
      rw [hz, hz]
      simp [Scope.check, this, fnCountHere, FnCount.add, Kind.isOpaque]
    | eMacro p t =>
      have hz : ∀ x, ourCount x cx.marker (exits cl w (.mk (.eMacro p t) as ks)) = 0 :=
        fun x => ourCount_zero fun a ha => .inr (exits_opaque rfl a ha)
      rw [hz, hz]
      unfold fnCount
      simp [fnCountHere, FnCount.add, Kind.isOpaque]
    | sMacro p t => unfold fnCount exits; simp [fnCountHere, FnCount.add, Kind.isOpaque, skips, ourCount]
    | sItem i => unfold fnCount exits; simp [fnCountHere, FnCount.add, Kind.isOpaque, skips, ourCount]
    | eVerbatim t => unfold fnCount exits; simp [fnCountHere, FnCount.add, Kind.isOpaque, skips, ourCount]
    | eReturn =>
      obtain ⟨h1, h2⟩ := hl w hw ht ks (fun _ h => h) hsl
      unfold fnCount exits
      simp only [Scope.check, Kind.isOpaque, skips, Bool.false_eq_true, if_false, if_true,
        FnCount.add, Where.enter, reduceCtorEq, List.append_nil, ourCount_append, h1, h2]
      have h0 : isNever as = anyEmptyAttr as NEVER := isNever_eq as
      cases ks with
      | nil =>
        simp only [fnCountHere, ourCount_one, Exit.ours, hw, ht, h0, valueOf]
        cases anyEmptyAttr as NEVER <;> simp
      | cons e l =>
        have hm := isMarkerExpr_root hr e
        simp only [fnCountHere, ourCount_one, Exit.ours, hw, ht, h0, valueOf, List.head?_cons,
          Option.map_some]
        cases anyEmptyAttr as NEVER
        · by_cases hv : valOf e = .mac ⟨false, [⟨cx.marker, none⟩]⟩
          · simp [hm.mpr hv, hv]
          · have : cx.isMarkerExpr e = false := by
              cases hc : cx.isMarkerExpr e
              · rfl
              · exact absurd (hm.mp hc) hv
            simp [this, hv]
        · simp
    | eTry =>
      obtain ⟨h1, h2⟩ := hl w hw ht ks (fun _ h => h) hsl
      unfold fnCount exits
      simp only [Scope.check, Kind.isOpaque, skips, Bool.false_eq_true, if_false, if_true,
        FnCount.add, Where.enter, reduceCtorEq, List.nil_append, ourCount_append, h1, h2]
      have h0 : isNever as = anyEmptyAttr as NEVER := isNever_eq as
      match ks, hs with
      | [e], _ =>
        have hm := isMarkerExpr_root hr e
        simp only [fnCountHere, ourCount_one, Exit.ours, hw, ht, h0, valueOf]
        cases anyEmptyAttr as NEVER
        · by_cases hv : valOf e = .mac ⟨false, [⟨cx.marker, none⟩]⟩
          · simp [hm.mpr hv, hv]
          · have : cx.isMarkerExpr e = false := by
              cases hc : cx.isMarkerExpr e
              · rfl
              · exact absurd (hm.mp hc) hv
            simp [this, hv]; try omega
        · simp
    | sExpr b =>
      match ks, hs with
      | [e], _ =>
        obtain ⟨h1, h2⟩ := hl w hw ht [e] (fun _ h => h) hsl
        unfold fnCount exits
        simp only [fnCountHere, Scope.check, Kind.isOpaque, skips, Bool.false_eq_true, if_false,
          FnCount.add, Where.enter, reduceCtorEq, List.append_nil, List.nil_append, h1, h2,
          List.length_singleton, bne_self_eq_false, Nat.zero_add, and_self]
    | eAsync =>
      obtain ⟨h1, h2⟩ := hl { w with asyncBlock := true } hw ht ks (fun _ h => h) hsl
      unfold fnCount exits
      simp only [fnCountHere, Scope.check, Kind.isOpaque, skips, Bool.false_eq_true, if_false,
        FnCount.add, Where.enter, reduceCtorEq, List.append_nil, List.nil_append, h1, h2,
        Nat.zero_add, and_self]
    | eTryBlock =>
      obtain ⟨h1, h2⟩ := hl { w with tryBlock := true } hw ht ks (fun _ h => h) hsl
      unfold fnCount exits
      simp only [fnCountHere, Scope.check, Kind.isOpaque, skips, Bool.false_eq_true, if_false,
        FnCount.add, Where.enter, reduceCtorEq, List.append_nil, List.nil_append, h1, h2,
        Nat.zero_add, and_self]
    | _ =>
      obtain ⟨h1, h2⟩ := hl w hw ht ks (fun _ h => h) hsl
      unfold fnCount exits
      simp only [fnCountHere, Scope.check, Kind.isOpaque, skips, Bool.false_eq_true, if_false,
        FnCount.add, Where.enter, reduceCtorEq, List.append_nil, List.nil_append, h1, h2,
        Nat.zero_add, and_self]

/-! ## Functions -/

theorem exits_iFn (cl : Bool) (w : Where) (name : String) (ret : Option Ty) (as : List Attr)
    (b : Node) : exits cl w (.mk (.iFn name ret) as [b]) = exits cl w b := by
  simp [exits, exitsL, skips, Where.enter]

theorem builtFn_exits (cl : Bool) (cx : Cx) (name : String) (ret : Option Ty) (as : List Attr)
    (b : Node) (w : Where) :
    exits cl w (builtFn cx (.mk (.iFn name ret) as [b])) = exits cl w b := by
  unfold builtFn
  split
  · exact exits_iFn _ _ _ _ _ _
  · split
    · rename_i heq
      cases heq
      rw [exits_iFn]
      simp [exits, exitsL, Cx.buildEnum, skips, Where.enter]
    · exact exits_iFn _ _ _ _ _ _

theorem fnAnalysis_stay {env : Env} {cx : Cx} {ret : Option Ty} {b : Node} :
    (fnAnalysis env cx ret b).root = cx.root ∧ (fnAnalysis env cx ret b).args = cx.args :=
  ⟨(fnAnalysis_kept rfl).root, (fnAnalysis_kept rfl).args⟩

/-- The exits of an attributed function. -/
theorem fn_flow {env : Env} (cl : Bool) {cx cx' : Cx} {name : String} {ret : Option Ty}
    {as asb : List Attr} {ss : List Node} {out : Node}
    (hr : cx.root = true) (hf : cl = true → Free (.mk (.iFn name ret) as [.mk .block asb ss]))
    (h : Run env (onStmt cx (.mk (.iFn name ret) as [.mk .block asb ss]) cx' out)) (w : Where)
    (hw : At {} w) :
    Aligned Exit.Kept (exits cl w (.mk (.iFn name ret) as [.mk .block asb ss])) (exits cl w out) ∧
        ((fnAnalysis env cx ret (.mk .block asb ss)).mode ≠ .default →
          cx.args = [] ∧ ((fnAnalysis env cx ret (.mk .block asb ss)).traits = [] ∨
            ∃ c, (fnAnalysis env cx ret (.mk .block asb ss)).mode = .ret c ∧ c < 2)) ∨
      (fnAnalysis env cx ret (.mk .block asb ss)).mode ≠ .default ∧
      Aligned (fate (fnAnalysis env cx ret (.mk .block asb ss)))
        (exits cl w (.mk (.iFn name ret) as [.mk .block asb ss])) (exits cl w out) := by
  have hf' : cl = true → Free (.mk .block asb ss) := fun hc => (hf hc).kids _ (by simp)
  have hz := Z.node (k := .block) (as := asb) (childLast_Z ss (fnAnalysis env cx ret (.mk .block asb ss)))
  cases h with
  | stmtFnDummy h1 h2 h3 =>
    have hk := fnAnalysis_stay (env := env) (cx := cx) (ret := ret) (b := .mk .block asb ss)
    subst h1
    refine .inl ⟨?_, fun ha => ?_⟩
    · have := (h3.flow cl (fun hc m hm => by simp only [List.mem_singleton] at hm; subst hm; exact hf' hc)).1 (.inl rfl)
      cases this with
      | cons h _ => rw [exits_iFn, exits_iFn]; exact h.exits w
    · simp only [Cx.isDummy, Bool.and_eq_true, List.isEmpty_iff, hk.2] at h2
      exact ⟨h2.1, .inl h2.2⟩
  | stmtFnExit h1 h2 h3 h4 h5 h6 =>
    subst h1
    have hk := fnAnalysis_stay (env := env) (cx := cx) (ret := ret) (b := .mk .block asb ss)
    generalize fnAnalysis env cx ret (.mk .block asb ss) = cx1 at *
    refine .inl ⟨?_, fun ha => ?_⟩
    · have := (h6.flow cl (fun hc m hm => by
        simp only [List.mem_singleton] at hm; subst hm; exact (hf' hc).mono hz.attrs)).1 (.inl rfl)
      cases this with
      | cons h _ => rw [exits_iFn, exits_iFn, ← hz.exits]; exact h.exits w
    · have hs := childLast_same ss cx1
      unfold Cx.analysisExit at h4
      rw [hs.mode, hs.args, hk.2] at h4
      split at h4
      · rename_i c hc
        simp only [Bool.and_eq_true, List.isEmpty_iff, decide_eq_true_eq] at h4
        exact ⟨h4.2.1.1, .inr ⟨c, hc, h4.2.2⟩⟩
      · simp at h4
  | stmtFn h1 h2 h3 h4 h5 h6 h7 =>
    subst h1
    have hk := fnAnalysis_stay (env := env) (cx := cx) (ret := ret) (b := .mk .block asb ss)
    generalize fnAnalysis env cx ret (.mk .block asb ss) = cx1 at *
    have hs := childLast_same ss cx1
    have g := h6.flow cl (fun hc m hm => by
      simp only [List.mem_singleton] at hm; subst hm; exact (hf' hc).mono hz.attrs)
    rw [builtFn_exits]
    by_cases hm : cx1.mode = .default
    · refine .inl ⟨?_, fun h => absurd hm h⟩
      have := g.1 (.inr (.inl (hs.mode.trans hm)))
      cases this with
      | cons h _ => rw [exits_iFn, ← hz.exits]; exact h.exits w
    · refine .inr ⟨hm, ?_⟩
      have := g.2 ⟨rfl, by rw [hs.root, hk.1]; exact hr, by rw [hs.mode]; exact hm, rfl⟩
      cases this with
      | cons h _ =>
        rw [exits_iFn, ← hz.exits, ← hs.fate]; exact h.exits w hw
  | stmtInert h1 h2 h3 h4 h5 => exact absurd rfl (h4 _ _ _ _ _)

/-! ## Closures -/

/-- An attributed closure: the body before and after. -/
theorem closure_flow {env : Env} (cl : Bool) {cx cx' : Cx} {i : String} {as : List Attr} {b out : Node}
    (hr : cx.root = true) (hl : cx.visitLast = true) (ha : Traited env cx) (hf : cl = true → Free b)
    (h : Run env (build cx (.mk (.eClosure i) as [b]) cx' out)) :
    ∃ b', out = built cx' (.mk (.eClosure i) as [b']) ∧ ∀ w, At {} w →
      Aligned (fate (closureCx cx b)) (exits cl w b) (exits cl w b') := by
  cases h with
  | buildExpr h1 _ _ => exact absurd rfl (h1 hl _ _ _)
  | @buildClosure _ _ _ b' _ _ h1 h2 h3 =>
    refine ⟨b', rfl, fun w hw => ?_⟩
    refine ((h2.flow cl hf).2 hr ?_ ha).exits w hw
    simp only [closureCx]; split <;> simp

end AutoEnums
