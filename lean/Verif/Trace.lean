import Verif.Visitor

/-!
# Traces

An inductive description of what a run does to a context and a tree, as a sequence of primitive
steps.  Every function of the model is shown to be a trace; properties of whole expansions are then
proved by induction on traces.
-/

namespace AutoEnums

theorem Node.strongInd {P : Node → Prop}
    (h : ∀ n, (∀ m, sizeOf m < sizeOf n → P m) → P n) : ∀ n, P n := by
  intro n
  have : ∀ k, ∀ n : Node, sizeOf n < k → P n := by
    intro k
    induction k with
    | zero => intro n hn; omega
    | succ k ih =>
      intro n hn
      exact h n fun m hm => ih m (by omega)
  exact this (sizeOf n + 1) n (by omega)

theorem Node.sizeOf_kid {k : Kind} {as : List Attr} {ks : List Node} {c : Node} (h : c ∈ ks) :
    sizeOf c < sizeOf (Node.mk k as ks) := by
  have := List.sizeOf_lt_of_mem h
  simp only [Node.mk.sizeOf_spec]
  omega

/-- `b` differs from `a` only in bookkeeping (`markers`, `hasChild`, `panics`, `log`); errors may have
been added. -/
structure Core (a b : Cx) : Prop where
  ident : b.ident = a.ident
  variants : b.variants = a.variants
  marker : b.marker = a.marker
  args : b.args = a.args
  traits : b.traits = a.traits
  root : b.root = a.root
  mode : b.mode = a.mode
  lastMode : b.lastMode = a.lastMode
  errs : a.errs <+: b.errs

/-- The error "two or more". -/
def Err.isTwo : Err → Bool
  | .twoOrMore _ _ => true
  | _ => false

/-- Moreover added errors are logged and are not "two or more", and panics are not lost. -/
structure Book (a b : Cx) : Prop extends Core a b where
  log : a.log = a.errs → b.log = b.errs
  two : ∀ e ∈ b.errs, e.isTwo = true → e ∈ a.errs
  panics : b.panics = [] → a.panics = []

theorem Book.refl (a : Cx) : Book a a :=
  ⟨⟨rfl, rfl, rfl, rfl, rfl, rfl, rfl, rfl, List.prefix_refl _⟩, id, fun _ h _ => h, id⟩

theorem Book.trans {a b c : Cx} (h : Book a b) (h' : Book b c) : Book a c :=
  ⟨⟨h'.ident.trans h.ident, h'.variants.trans h.variants, h'.marker.trans h.marker,
    h'.args.trans h.args, h'.traits.trans h.traits, h'.root.trans h.root, h'.mode.trans h.mode,
    h'.lastMode.trans h.lastMode, h.errs.trans h'.errs⟩, fun x => h'.log (h.log x),
    fun e he h2 => h.two e (h'.two e he h2) h2, fun x => h.panics (h'.panics x)⟩

/-- The type the target of an attribute is annotated with. -/
def Node.annotation : Node → Option Ty
  | .mk (.sLocal (.typed _ ty)) _ _ => some ty
  | .mk (.iFn _ ret) _ _ => ret
  | _ => none

/-- The choices made before the body of an attribute is looked at: the mode, whether the target ends
with `;`, and the inferred traits. -/
structure Setup (env : Env) (n : Node) (a b : Cx) : Prop where
  ident : b.ident = a.ident
  variants : b.variants = a.variants
  marker : b.marker = a.marker
  args : b.args = a.args
  root : b.root = a.root
  errs : b.errs = a.errs
  log : b.log = a.log
  lastMode : b.lastMode = a.lastMode ∨ b.lastMode = .never
  mode : b.mode = a.mode ∨ (a.mode = .default ∧ a.lastMode ≠ .never ∧ b.lastMode = a.lastMode)
  traits : b.traits = a.traits ∨ env.typeAnalysis = true ∧ a.traits = [] ∧
    ∃ ty, n.annotation = some ty ∧ b.traits = collectTy a.args ty

theorem Setup.refl (env : Env) (n : Node) (a : Cx) : Setup env n a a :=
  ⟨rfl, rfl, rfl, rfl, rfl, rfl, rfl, .inl rfl, .inl rfl, .inl rfl⟩

/-- Expressions that may follow `else`. -/
def Kind.isElse : Kind → Bool
  | .eBlock _ | .eIf => true
  | _ => false

/-- What may replace the kid `n` of a node of kind `k`: items stay as they are, and what follows
`else` still may. -/
def Fits (k : Kind) (n n' : Node) : Prop :=
  (k.isBlockLike = true → ∀ i, n.kind = .sItem i → n' = n) ∧
  (k = .eIf → n.kind.isElse = true → n'.kind.isElse = true)

theorem Fits.same {k : Kind} {n n' : Node} (hb : k.isBlockLike = true → ∀ i, n.kind ≠ .sItem i)
    (h : n'.kind = n.kind) : Fits k n n' :=
  ⟨fun h1 i h2 => absurd h2 (hb h1 i), fun _ h1 => by rw [h]; exact h1⟩

theorem Fits.plain {k : Kind} {n n' : Node} (hb : k.isBlockLike = false) (h : k ≠ .eIf) :
    Fits k n n' := ⟨by simp [hb], fun h1 => absurd h1 h⟩

/-- `T env false cx n cx' n'`: steps of one context.  `T env true cx n cx' n'`: the complete expansion
of an attribute, including the insertion of its enum.   -/
inductive T (env : Env) : Bool → Cx → Node → Cx → Node → Prop where
  | refl : T env false cx n cx n
  | trans : T env false a n b m → T env false b m c o → T env false a n c o
  | book : Book cx cx' → T env false cx n cx' n
  | kid : k.isOpaque = false → Fits k n n' →
      T env false cx n cx' n' →
      T env false cx (.mk k as (pre ++ n :: post)) cx' (.mk k as (pre ++ n' :: post))
  /-- The value of a `return` or `break`. -/
  | wrapVal : cx.visitLast = true → (k = .eReturn ∨ ∃ l, k = .eBreak l) →
      T env false cx (.mk k as (e :: rest)) (cx.nextExpr e).1 (.mk k as ((cx.nextExpr e).2 :: rest))
  /-- The body of an arm with guard `g`. -/
  | wrapArm : cx.visitLast = true → (g = [] ∨ ∃ c, g = [c]) →
      T env false cx (.mk (.arm p) as (g ++ [e])) (cx.nextExpr e).1
        (.mk (.arm p) as (g ++ [(cx.nextExpr e).2]))
  | wrapBlock : cx.visitLast = true → (k = .block ∨ ∃ l, k = .eBlock l) →
      T env false cx (.mk k as ss) (cx.nextExpr (exprBlock ss)).1
        (.mk k as [tailS (cx.nextExpr (exprBlock ss)).2])
  | fill : cx.visitLast = true → (k = .eReturn ∨ ∃ l, k = .eBreak l) →
      T env false cx (.mk k as []) (cx.nextExpr unitE).1 (.mk k as [(cx.nextExpr unitE).2])
  | marker : cx.isMarkerExact p = true →
      T env false cx (.mk (.eMacro p t) as [e]) (cx.nextExprAttrs as e).1 (cx.nextExprAttrs as e).2
  | tryOp : cx.mode = .try_ → cx.lastMode ≠ .never →
      T env false cx (.mk .eTry as [e]) (cx.nextExpr (pathE (.ofIdents ["err"]))).1
      (.mk .eMatch as (e :: tryArms (cx.nextExpr (pathE (.ofIdents ["err"]))).2))
  | dropAttr : s ∈ [NAME, NESTED, NEVER] → n.findRemoveAttr s = some (a, n') →
      T env false cx n cx n'
  /-- A marker replaced after an error. -/
  | unmark : cx.isMarkerExact p = true → cx.errs ≠ [] →
      T env false cx (.mk (.eMacro p t) as [e]) cx e
  /-- A marker whose contents are not an expression. -/
  | badMark : cx.isMarkerExact p = true →
      T env false cx (.mk (.eMacro p t) as ks) (cx.error .markerParse) failedMarker
  /-- The removed attribute `#[rec]`. -/
  | dropRec : n.findRemoveAttr "rec" = some (a, n') →
      T env false cx n (cx.error .recRemoved) n'
  | child : cx.errs = [] → n.findRemoveAttr NAME = some (attr, n1) →
      (attr.form = .list toks ∨ attr.form = .path ∧ toks = []) →
      Cx.new (env.hash n1) toks false ms [] = .ok ch → T env false cx n1 cx2 n2 →
      T env true ch n2 ch2 n3 → cx3 = cx2.joinChild ch2 → T env false cx n cx3 n3
  | exPlain : T env false cx n cx' n' → cx'.variants = [] → T env true cx n cx' n'
  | exErr : T env false cx n cx' n' → cx'.errs ≠ [] → T env true cx n cx' n'
  /-- `Context::build` fails. -/
  | exTwo : T env false cx n cx' n' → cx'.errs = [] →
      (cx'.variants.length = 1 ∨ cx'.variants.length = 0 ∧ cx'.hasChild = false) →
      T env true cx n (cx'.error (.twoOrMore cx'.lastMode (!cx'.variants.isEmpty))) n'
  | exExpr : T env false cx e cx' e' → 2 ≤ cx'.variants.length →
      T env true cx e cx' (buildExpr cx'.buildEnum e')
  | exKid : (∃ b, k = .sExpr b) ∨ (∃ p, k = .sLocal p) → T env true cx e cx' e' →
      T env true cx (.mk k as (e :: els)) cx' (.mk k as (e' :: els))
  | exPat : (p' = p ∨ env.typeAnalysis = true ∧ ∃ s ty, p = .typed s ty ∧ p' = .plain s) →
      T env true cx (.mk (.sLocal p') as ks) cx' n' → T env true cx (.mk (.sLocal p) as ks) cx' n'
  | exFn : T env false cx n cx' (.mk (.iFn name ret) as [.mk .block asb ss]) →
      2 ≤ cx'.variants.length →
      T env true cx n cx' (.mk (.iFn name ret) as [.mk .block asb (cx'.buildEnum :: ss)])
  | exSetup : Setup env n cx cx0 → T env true cx0 n cx' n' → T env true cx n cx' n'

theorem join_core {cx2 ch2 cx3 : Cx} (h : cx3 = cx2.joinChild ch2) : Core cx2 cx3 := by
  subst h
  unfold Cx.joinChild Cx.assert Cx.panic
  split <;> exact ⟨rfl, rfl, rfl, rfl, rfl, rfl, rfl, rfl, by simp⟩

theorem join_errs {cx2 ch2 cx3 : Cx} (h : cx3 = cx2.joinChild ch2) :
    cx3.errs = cx2.errs ++ ch2.errs := by
  subst h
  unfold Cx.joinChild Cx.assert Cx.panic
  split <;> rfl

theorem join_log {cx2 ch2 cx3 : Cx} (h : cx3 = cx2.joinChild ch2) :
    cx3.log = cx2.log ++ ch2.log := by
  subst h
  unfold Cx.joinChild Cx.assert Cx.panic
  split <;> rfl

theorem join_nil {cx2 ch2 cx3 : Cx} (h : cx3 = cx2.joinChild ch2) (he : cx3.errs = []) :
    cx2.errs = [] ∧ ch2.errs = [] := by
  rw [join_errs h] at he
  exact List.append_eq_nil_iff.mp he

namespace T

variable {env : Env}

theorem modes' {b : Bool} (h : T env b cx n cx' n') : b = false →
    cx'.mode = cx.mode ∧ cx'.lastMode = cx.lastMode := by
  induction h with
  | refl => exact fun _ => ⟨rfl, rfl⟩
  | trans _ _ h1 h2 =>
    exact fun _ => ⟨(h2 rfl).1.trans (h1 rfl).1, (h2 rfl).2.trans (h1 rfl).2⟩
  | book h => exact fun _ => ⟨h.mode, h.lastMode⟩
  | kid _ _ _ ih => exact ih
  | wrapVal => exact fun _ => ⟨rfl, rfl⟩
  | wrapArm => exact fun _ => ⟨rfl, rfl⟩
  | wrapBlock => exact fun _ => ⟨rfl, rfl⟩
  | fill => exact fun _ => ⟨rfl, rfl⟩
  | marker => exact fun _ => ⟨rfl, rfl⟩
  | tryOp => exact fun _ => ⟨rfl, rfl⟩
  | dropAttr => exact fun _ => ⟨rfl, rfl⟩
  | unmark => exact fun _ => ⟨rfl, rfl⟩
  | badMark => exact fun _ => ⟨rfl, rfl⟩
  | dropRec => exact fun _ => ⟨rfl, rfl⟩
  | child _ _ _ _ _ _ heq ih =>
    have hb := join_core heq
    exact fun _ => ⟨hb.mode.trans (ih rfl).1, hb.lastMode.trans (ih rfl).2⟩
  | exPlain => exact fun h => by cases h
  | exErr => exact fun h => by cases h
  | exTwo => exact fun h => by cases h
  | exExpr => exact fun h => by cases h
  | exKid => exact fun h => by cases h
  | exPat => exact fun h => by cases h
  | exFn => exact fun h => by cases h
  | exSetup => exact fun h => by cases h

/-- The mode does not change while a context is at work. -/
theorem modes (h : T env false cx n cx' n') : cx'.mode = cx.mode ∧ cx'.lastMode = cx.lastMode :=
  h.modes' rfl

theorem visitLast (h : T env false cx n cx' n') : cx'.visitLast = cx.visitLast := by
  unfold Cx.visitLast; rw [h.modes.1, h.modes.2]

/-- `P` depends on the mode only. -/
def ModeOnly (P : Cx → Prop) : Prop :=
  ∀ {a b : Cx}, b.mode = a.mode → b.lastMode = a.lastMode → P a → P b

theorem modeOnly_visitLast : ModeOnly (fun cx => cx.visitLast = true) := by
  intro a b h1 h2 h
  simpa [Cx.visitLast, h1, h2] using h

theorem mapA {P : Cx → Prop} (hP : ModeOnly P) {f : Cx → Node → Cx × Node}
    (hf : ∀ cx n, P cx → T env false cx n (f cx n).1 (f cx n).2)
    (k : Kind) (hk : k.isOpaque = false)
    (hi : ∀ cx n, Fits k n (f cx n).2) (as : List Attr) :
    ∀ (ks pre : List Node) (cx : Cx), P cx →
      T env false cx (.mk k as (pre ++ ks)) (AutoEnums.mapA f cx ks).1
        (.mk k as (pre ++ (AutoEnums.mapA f cx ks).2)) := by
  intro ks
  induction ks with
  | nil => intro pre cx _; exact .refl
  | cons n ns ih =>
    intro pre cx hp
    simp only [AutoEnums.mapA]
    have h0 := hf cx n hp
    have h1 := T.kid (as := as) (pre := pre) (post := ns) hk (hi cx n) h0
    have h2 := ih (pre ++ [(f cx n).2]) (f cx n).1 (hP h0.modes.1 h0.modes.2 hp)
    simp only [List.append_assoc, List.singleton_append] at h2
    exact h1.trans h2

theorem walk {P : Cx → Prop} (hP : ModeOnly P) {f : Cx → Node → Cx × Node}
    (hf : ∀ cx n, P cx → T env false cx n (f cx n).1 (f cx n).2)
    (hi : ∀ k cx n, Fits k n (f cx n).2)
    (cx : Cx) (n : Node) (hp : P cx) :
    T env false cx n (AutoEnums.walk f cx n).1 (AutoEnums.walk f cx n).2 := by
  cases n with
  | mk k as ks =>
    simp only [AutoEnums.walk]
    by_cases hk : k.isOpaque = true
    · simp only [hk, if_true]; exact .refl
    · simp only [Bool.not_eq_true] at hk
      simp only [hk, Bool.false_eq_true, if_false]
      exact T.mapA hP hf k hk (hi k) as ks [] cx hp

/-- Congruence for the first kid. -/
theorem kid0 {k : Kind} (hk : k.isOpaque = false) (hb : Fits k n n')
    (h : T env false cx n cx' n') :
    T env false cx (.mk k as (n :: post)) cx' (.mk k as (n' :: post)) :=
  T.kid (pre := []) hk hb h

theorem kid1 {k : Kind} (hk : k.isOpaque = false) (hb : Fits k n n')
    (h : T env false cx n cx' n') :
    T env false cx (.mk k as (a :: n :: post)) cx' (.mk k as (a :: n' :: post)) :=
  T.kid (pre := [a]) hk hb h

theorem kid2 {k : Kind} (hk : k.isOpaque = false) (hb : Fits k n n')
    (h : T env false cx n cx' n') :
    T env false cx (.mk k as (a :: b :: n :: post)) cx' (.mk k as (a :: b :: n' :: post)) :=
  T.kid (pre := [a, b]) hk hb h

end T

variable {env : Env}

theorem Book.error (cx : Cx) (e : Err) (he : e.isTwo = false := by rfl) : Book cx (cx.error e) :=
  ⟨⟨rfl, rfl, rfl, rfl, rfl, rfl, rfl, rfl, by simp [Cx.error]⟩, by simp [Cx.error], (by
    intro e' h1 h2
    simp only [Cx.error, List.mem_append, List.mem_singleton] at h1
    rcases h1 with h1 | rfl
    · exact h1
    · rw [he] at h2; cases h2), id⟩

theorem Book.panic (cx : Cx) (p : Panic) : Book cx (cx.panic p) :=
  ⟨⟨rfl, rfl, rfl, rfl, rfl, rfl, rfl, rfl, List.prefix_refl _⟩, id, fun _ h _ => h, by
    simp [Cx.panic]⟩

theorem Book.assert (cx : Cx) (b : Bool) (p : Panic) : Book cx (cx.assert b p) := by
  unfold Cx.assert; split
  · exact .refl _
  · exact .panic _ _

/-! ## `child_expr` -/

theorem wrapArm_tr (cx : Cx) (n : Node) (hv : cx.visitLast = true) :
    T env false cx n (wrapArm cx n).1 (wrapArm cx n).2 := by
  unfold wrapArm
  split
  · exact .refl
  · split
    · exact .wrapArm (g := []) hv (.inl rfl)
    · exact .wrapArm (g := [_]) hv (.inr ⟨_, rfl⟩)
    · exact .refl

theorem wrapBlock_tr {k : Kind} (hk : k = .block ∨ ∃ l, k = .eBlock l) (cx : Cx) (as : List Attr)
    (ss : List Node) (hv : cx.visitLast = true) :
    T env false cx (.mk k as ss) (wrapBlock cx ss).1 (.mk k as (wrapBlock cx ss).2) := by
  unfold wrapBlock
  split
  · exact .refl
  · exact .wrapBlock hv hk

theorem visitIf_top (cx : Cx) (n : Node) :
    (visitIf cx n).2.kind = n.kind ∧ (visitIf cx n).2.rawAttrs = n.rawAttrs := by
  unfold visitIf
  split
  · exact ⟨rfl, rfl⟩
  · split <;> exact ⟨rfl, rfl⟩
  · exact ⟨rfl, rfl⟩

theorem loopVisit_top (label : Option String) (nested : Bool) (cx : Cx) (n : Node) :
    (loopVisit label nested cx n).2.kind = n.kind := by
  cases n with
  | mk k as ks =>
    unfold loopVisit
    split
    · rfl
    · split <;> (try split) <;> (try split) <;> (try split) <;> rfl

theorem visitIf_tr : ∀ (n : Node) (cx : Cx), cx.visitLast = true →
    T env false cx n (visitIf cx n).1 (visitIf cx n).2 := by
  intro n
  induction n using Node.strongInd with
  | h n ih =>
    intro cx hv
    unfold visitIf
    split
    · rename_i as c asb ss
      have h1 : T env false cx (.mk .eIf as [c, .mk .block asb ss]) (wrapBlock cx ss).1
          (.mk .eIf as [c, .mk .block asb (wrapBlock cx ss).2]) :=
        T.kid1 rfl (.same (by simp [Kind.isBlockLike]) rfl) (wrapBlock_tr (.inl rfl) cx _ _ hv)
      exact h1.trans (.book (.error _ _))
    · rename_i as c asb ss e
      have h1 : T env false cx (.mk .eIf as [c, .mk .block asb ss, e]) (wrapBlock cx ss).1
          (.mk .eIf as [c, .mk .block asb (wrapBlock cx ss).2, e]) :=
        T.kid1 rfl (.same (by simp [Kind.isBlockLike]) rfl) (wrapBlock_tr (.inl rfl) cx _ _ hv)
      have hv1 : (wrapBlock cx ss).1.visitLast = true := by rw [← hv]; exact h1.visitLast
      dsimp only
      split
      · rename_i l hl
        cases e with
        | mk ke ase es =>
          simp only [Node.kind] at hl
          subst hl
          exact h1.trans (T.kid2 rfl (.same (by simp [Kind.isBlockLike]) rfl)
            (wrapBlock_tr (.inr ⟨_, rfl⟩) _ _ _ hv1))
      · exact h1.trans (T.kid2 rfl (.same (by simp [Kind.isBlockLike]) (visitIf_top _ _).1) (ih _ (Node.sizeOf_kid (by simp)) _ hv1))
      · exact h1.trans (.book (.panic _ _))
    · exact .refl

theorem nextExpr_fst (cx : Cx) (e : Node) : (cx.nextExpr e).1 =
    { cx with variants := cx.variants ++ [variantIdent cx.variants.length] } := rfl

theorem nextExpr_snd (cx : Cx) (e : Node) : (cx.nextExpr e).2 =
    exprCall [] (Path.ofIdents [cx.ident, variantIdent cx.variants.length]) e := rfl

theorem loopVisit_item (label : Option String) (nested : Bool) (cx : Cx) (n : Node) (i : ItemK)
    (h : n.kind = .sItem i) : (loopVisit label nested cx n).2 = n := by
  cases n with
  | mk k as ks =>
    simp only [Node.kind] at h
    subst h
    unfold loopVisit
    simp [Kind.isOpaque]

theorem loopVisit_fits (label : Option String) (nested : Bool) (cx : Cx) (n : Node) (k : Kind) :
    Fits k n (loopVisit label nested cx n).2 :=
  ⟨fun _ i h => loopVisit_item label nested cx n i h, fun _ h => by rw [loopVisit_top]; exact h⟩

theorem loopVisit_tr (label : Option String) : ∀ (n : Node) (nested : Bool) (cx : Cx), cx.visitLast = true →
    T env false cx n (loopVisit label nested cx n).1 (loopVisit label nested cx n).2 := by
  intro n
  induction n using Node.ind with
  | h k as ks ih =>
    intro nested cx hv
    have hl : ∀ (nested : Bool) (l pre : List Node) (cx : Cx), cx.visitLast = true →
        k.isOpaque = false → (∀ c ∈ l, c ∈ ks) →
        T env false cx (.mk k as (pre ++ l)) (loopVisitL label nested cx l).1
          (.mk k as (pre ++ (loopVisitL label nested cx l).2)) := by
      intro nested l
      induction l with
      | nil => intro pre cx _ _ _; exact .refl
      | cons a l ihl =>
        intro pre cx hv hk hm
        simp only [loopVisitL]
        have h0 := ih a (hm a (by simp)) nested cx hv
        have h1 := T.kid (as := as) (pre := pre) (post := l) hk
          (loopVisit_fits label nested cx a k) h0
        have h2 := ihl (pre ++ [(loopVisit label nested cx a).2]) (loopVisit label nested cx a).1
          (h0.visitLast.trans hv) hk
          (fun c hc => hm c (by simp [hc]))
        simp only [List.append_assoc, List.singleton_append] at h2
        exact h1.trans h2
    unfold loopVisit
    split
    · exact .refl
    · rename_i hc
      have hk : k.isOpaque = false := by
        simp only [Bool.or_eq_true, not_or, Bool.not_eq_true] at hc; exact hc.1
      split
      · exact .refl
      · exact .refl
      · split
        · exact .refl
        · exact hl true ks [] cx hv rfl (fun _ h => h)
      · split
        · exact .refl
        · exact hl true ks [] cx hv rfl (fun _ h => h)
      · split
        · exact .refl
        · exact hl true ks [] cx hv rfl (fun _ h => h)
      · split
        · split
          · exact .fill hv (.inr ⟨_, rfl⟩)
          · split
            · exact .refl
            · rename_i l _ e rest _ 
              refine T.trans (T.wrapVal hv (.inr ⟨_, rfl⟩)) ?_
              rw [nextExpr_fst, nextExpr_snd]
              exact T.kid0 rfl (.plain rfl (by simp)) (T.kid1 rfl (.plain rfl (by simp))
                (ih e (by simp) _ _ hv))
        · exact hl nested ks [] cx hv rfl (fun _ h => h)
      · exact hl nested ks [] cx hv hk (fun _ h => h)

theorem loopVisitL_tr (label : Option String) {k : Kind} (hk : k.isOpaque = false)
    (as : List Attr) (nested : Bool) (l : List Node) : ∀ (pre : List Node) (cx : Cx),
    cx.visitLast = true →
    T env false cx (.mk k as (pre ++ l)) (loopVisitL label nested cx l).1
      (.mk k as (pre ++ (loopVisitL label nested cx l).2)) := by
  induction l with
  | nil => intro pre cx _; exact .refl
  | cons a l ihl =>
    intro pre cx hv
    unfold loopVisitL
    have h0 := loopVisit_tr (env := env) label a nested cx hv
    have h1 := T.kid (as := as) (pre := pre) (post := l) hk
      (loopVisit_fits label nested cx a k) h0
    have h2 := ihl (pre ++ [(loopVisit label nested cx a).2]) (loopVisit label nested cx a).1
      (h0.visitLast.trans hv)
    simp only [List.append_assoc, List.singleton_append] at h2
    exact h1.trans h2

theorem childLast_tr {k : Kind} (hk : k.isOpaque = false) (as : List Attr) (ks : List Node)
    (ih : ∀ m, sizeOf m < sizeOf (Node.mk k as ks) → ∀ cx,
      T env false cx m (childExpr cx m).1 (childExpr cx m).2) (cx : Cx) :
    ∀ (l pre : List Node), (∀ c ∈ l, c ∈ ks) →
      T env false cx (.mk k as (pre ++ l)) (childLast cx l).1 (.mk k as (pre ++ (childLast cx l).2)) := by
  intro l
  induction l with
  | nil => intro pre _; exact .refl
  | cons a l ihl =>
    intro pre hm
    unfold childLast
    split
    · contradiction
    · rename_i as' e heq
      obtain ⟨rfl, rfl⟩ := List.cons.inj heq
      refine T.kid hk (.same (by simp [Node.kind]) rfl)
        (T.kid0 rfl (.plain rfl (by simp)) (ih e ?_ cx))
      have h1 := Node.sizeOf_kid (k := .sExpr false) (as := as') (ks := [e]) (c := e) (by simp)
      have h2 := Node.sizeOf_kid (k := k) (as := as) (hm _ (List.mem_cons_self ..))
      omega
    · rename_i s _ heq
      rw [← heq]; exact .refl
    · rename_i s t ss heq
      obtain ⟨rfl, rfl⟩ := List.cons.inj heq
      have := ihl (pre ++ [a]) (fun c hc => hm c (by simp [hc]))
      simpa using this

theorem childExpr_tr : ∀ (n : Node) (cx : Cx),
    T env false cx n (childExpr cx n).1 (childExpr cx n).2 := by
  intro n
  induction n using Node.strongInd with
  | h n ih =>
    intro cx
    cases n with
    | mk k as ks =>
      unfold childExpr
      split
      · exact .refl
      · rename_i hc
        have hv : cx.visitLast = true := by
          simp only [Bool.or_eq_true, Bool.not_eq_true', not_or, Bool.not_eq_false] at hc
          exact hc.1
        split
        · exact childLast_tr rfl as _ ih cx _ [] (fun _ h => h)
        · exact childLast_tr rfl as _ ih cx _ [] (fun _ h => h)
        · exact T.mapA T.modeOnly_visitLast wrapArm_tr .eMatch rfl
            (fun _ _ => .plain rfl (by simp)) as _ [_] cx hv
        · exact visitIf_tr _ _ hv
        · exact loopVisitL_tr _ rfl as _ _ [] cx hv
        · exact T.kid0 rfl (.plain rfl (by simp)) (ih _ (Node.sizeOf_kid (by simp)) _)
        · exact T.kid0 rfl (.plain rfl (by simp)) (ih _ (Node.sizeOf_kid (by simp)) _)
        · exact .refl

end AutoEnums
