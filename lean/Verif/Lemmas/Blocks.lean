import Verif.Lemmas.Scope

/-! # Blocks that declare a variant (for C01) -/

namespace AutoEnums

open Spec

section

variable {en vn : Ident}

theorem declBlocks_mk (k : Kind) (as : List Attr) (ks : List Node) : declBlocks en vn (.mk k as ks) =
    (if declaring en vn (.mk k as ks) then [.mk k as ks] else []) ++ declBlocksL en vn ks := by
  rw [declBlocks]

@[simp] theorem declBlocksL_nil : declBlocksL en vn [] = [] := by rw [declBlocksL]

@[simp] theorem declBlocksL_cons (n : Node) (ns : List Node) :
    declBlocksL en vn (n :: ns) = declBlocks en vn n ++ declBlocksL en vn ns := by rw [declBlocksL]

@[simp] theorem declBlocksL_append (a b : List Node) :
    declBlocksL en vn (a ++ b) = declBlocksL en vn a ++ declBlocksL en vn b := by
  induction a with
  | nil => simp
  | cons n ns ih => simp [ih]

theorem declBlocks_plain {k : Kind} (hk : k.isBlockLike = false) (as : List Attr) (ks : List Node) :
    declBlocks en vn (.mk k as ks) = declBlocksL en vn ks := by
  rw [declBlocks_mk, declaring, hk]; simp

theorem declBlocks_none {k : Kind} {ks : List Node} (hk : ks.any (declares en vn) = false) (as : List Attr) :
    declBlocks en vn (.mk k as ks) = declBlocksL en vn ks := by
  rw [declBlocks_mk, declaring, hk]; simp

/-- All blocks of a list that declare the variant satisfy `P`. -/
def Every (en vn : Ident) (P : Node → Prop) (n : Node) : Prop := ∀ b ∈ declBlocks en vn n, P b

theorem declares_decls {n : Node} (h : declares en vn n = true) : 1 ≤ decls en vn n := by
  obtain ⟨k, as, ks⟩ := n
  rw [decls_eq, weigh_mk]
  unfold declares at h
  split at h
  · rename_i heq
    cases heq
    simp only [Bool.and_eq_true, beq_iff_eq, List.contains_iff_mem] at h
    simp only [isDecl, h.1, if_true]
    have := List.one_le_count_iff.mpr h.2
    omega
  · cases h

theorem any_decls {l : List Node} (h : l.any (declares en vn) = true) : 1 ≤ weighL (isDecl en vn) l := by
  induction l with
  | nil => simp at h
  | cons a l ih =>
    rw [weighL_cons]
    simp only [List.any_cons, Bool.or_eq_true] at h
    rcases h with h | h
    · have := declares_decls h
      rw [decls_eq] at this
      omega
    · have := ih h
      omega

theorem declaring_decls {n : Node} (h : declaring en vn n = true) : 1 ≤ decls en vn n := by
  obtain ⟨k, as, ks⟩ := n
  simp only [declaring, Bool.and_eq_true] at h
  have := any_decls h.2
  rw [decls_eq, weigh_mk]
  omega

theorem uses_freeUses (n : Node) : decls en vn n = 0 → freeUses en vn n = uses en vn n := by
  induction n using Node.ind with
  | h k as ks ih =>
    intro hd
    have hn : ¬(k.isBlockLike && ks.any (declares en vn)) = true := by
      intro h
      have := declaring_decls (n := .mk k as ks) h
      omega
    rw [freeUses_mk, if_neg hn, uses_eq, weigh_mk]
    rw [decls_eq, weigh_mk] at hd
    have hl : ∀ l : List Node, (∀ c ∈ l, c ∈ ks) → weighL (isDecl en vn) l = 0 →
        freeUsesL en vn l = weighL (isUse en vn) l := by
      intro l
      induction l with
      | nil => simp
      | cons a l ihl =>
        intro hm h0
        rw [weighL_cons] at h0
        have h1 := ih a (hm a (by simp)) (by rw [decls_eq]; omega)
        have h2 := ihl (fun c hc => hm c (by simp [hc])) (by omega)
        rw [freeUsesL_cons, weighL_cons, h1, h2, uses_eq]
    rw [hl ks (fun _ h => h) (by omega)]

theorem declBlocks_next (cx : Cx) (as : List Attr) (e : Node) :
    declBlocks en vn (cx.nextExprAttrs as e).2 = declBlocks en vn e := by
  simp [Cx.nextExprAttrs, exprCall, pathE, declBlocks_plain (show Kind.eCall.isBlockLike = false from rfl),
    declBlocks_plain (show (Kind.ePath _ _).isBlockLike = false from rfl)]

theorem declBlocks_enum (cx : Cx) : declBlocks en vn cx.buildEnum = [] := by
  simp [Cx.buildEnum, declBlocks_plain (show (Kind.sItem _).isBlockLike = false from rfl)]

theorem decls_enum (cx : Cx) : decls en vn cx.buildEnum = pending en vn cx := by
  simp only [decls_eq, Cx.buildEnum, weigh_mk, weighL_nil, isDecl, List.map_map, pending]
  simp only [show ((fun x : Ident × Ident => x.1) ∘ fun v : Ident => (v, v)) = id from rfl, List.map_id]
  omega

theorem pending_other {cx : Cx} : ¬Other en vn cx ↔ 0 < pending en vn cx := by
  unfold Other pending
  by_cases h : cx.ident = en
  · subst h; simp [List.count_pos_iff]
  · simp [h, Ne.symm h]

theorem pending_mono {a b : Cx} (h1 : b.ident = a.ident) (h2 : a.variants <+: b.variants) :
    pending en vn a ≤ pending en vn b := by
  unfold pending
  rw [h1]
  split
  · exact h2.sublist.count_le _
  · omega

/-- A root that is a block, with other attributes or another kind of block. -/
theorem every_reroot {P Q : Node → Prop} {k k' : Kind} {as as' : List Attr} {ks : List Node}
    (hk : k'.isBlockLike = true → k.isBlockLike = true)
    (hP : ∀ b, P b → Q b) (hroot : P (.mk k as ks) → Q (.mk k' as' ks))
    (h : Every en vn P (.mk k as ks)) : Every en vn Q (.mk k' as' ks) := by
  intro b hb
  rw [declBlocks_mk, List.mem_append] at hb
  rcases hb with hb | hb
  · split at hb
    · rename_i hd
      rw [List.mem_singleton] at hb
      subst hb
      refine hroot (h _ ?_)
      rw [declBlocks_mk, List.mem_append]
      simp only [declaring, Bool.and_eq_true] at hd ⊢
      exact .inl (by rw [if_pos ⟨hk hd.1, hd.2⟩]; simp)
    · cases hb
  · exact hP b (h b (by rw [declBlocks_mk, List.mem_append]; exact .inr hb))

end

theorem decls_findRemove {en vn : Ident} {n n' : Node} {s : String} {a : Attr}
    (h : n.findRemoveAttr s = some (a, n')) : decls en vn n' = decls en vn n :=
  weigh_findRemove (isDecl_attrs en vn) h

/-- Only the attributes of the root are changed. -/
theorem findRemove_root {n n' : Node} {s : String} {a : Attr} (h : n.findRemoveAttr s = some (a, n')) :
    ∃ k as as' ks, n = .mk k as ks ∧ n' = .mk k as' ks := by
  obtain ⟨k, as, ks⟩ := n
  simp only [Node.findRemoveAttr] at h
  split at h
  · split at h
    · cases h; exact ⟨_, _, _, _, rfl, rfl⟩
    · cases h
  · cases h

/-- Declarations are not lost. -/
theorem T.decls_le {env : Env} {b : Bool} {cx cx' : Cx} {n n' : Node} (h : T env b cx n cx' n')
    (he : cx'.errs = []) (en vn : Ident) : decls en vn n ≤ decls en vn n' := by
  induction h with
  | refl => exact Nat.le_refl _
  | trans h1 h2 ih1 ih2 => exact Nat.le_trans (ih1 (errs_nil_of_prefix h2.errs_mono he)) (ih2 he)
  | book h => exact Nat.le_refl _
  | kid _ _ _ ih =>
    have := ih he
    simp only [decls_eq, weigh_mk, weighL_append, weighL_cons] at *
    omega
  | wrapVal _ _ =>
    simp only [decls_eq, Cx.nextExpr, weigh_next, weigh_mk, weighL_cons]
    simp [isDecl]
  | wrapArm _ _ =>
    simp only [decls_eq, Cx.nextExpr, weigh_next, weigh_mk, weighL_append, weighL_cons]
    simp [isDecl]
  | wrapBlock hv hk =>
    simp only [decls_eq, Cx.nextExpr, weigh_next, tailS, weigh_mk, weighL_cons, weighL_nil, exprBlock]
    omega
  | fill hv hk =>
    simp only [decls_eq, weigh_mk, weighL_cons, weighL_nil]
    omega
  | marker =>
    simp only [decls_eq, weigh_next, weigh_mk, weighL_cons, weighL_nil]
    simp [isDecl]
  | tryOp =>
    simp only [decls_eq, weigh_mk, weighL_cons, weighL_nil]
    simp [isDecl]
  | dropAttr _ hf => rw [decls_findRemove hf]; exact Nat.le_refl _
  | unmark _ hne => exact absurd he hne
  | badMark => simp [Cx.error] at he
  | dropRec => simp [Cx.error] at he
  | child _ hf _ hnew h1 h2 heq ih1 ih2 =>
    obtain ⟨e2, ech⟩ := join_nil heq he
    have := ih1 e2
    rw [decls_findRemove hf] at this
    exact Nat.le_trans this (ih2 ech)
  | exPlain h1 hv ih => exact ih he
  | exErr _ hne _ => exact absurd he hne
  | exTwo => simp [Cx.error] at he
  | exExpr h1 _ ih =>
    have := ih he
    simp only [decls_eq, buildExpr, exprBlock, tailS, weigh_mk, weighL_cons, weighL_nil] at *
    omega
  | exKid _ _ ih =>
    have := ih he
    simp only [decls_eq, weigh_mk, weighL_cons] at *
    omega
  | exPat hp _ ih =>
    have := ih he
    simp only [decls_eq, weigh_mk] at *
    simp only [isDecl] at *
    omega
  | exFn h1 _ ih =>
    have := ih he
    simp only [decls_eq, weigh_mk, weighL_cons, weighL_nil] at *
    omega
  | exSetup hs _ ih => exact ih he

/-- No statement becomes a declaration. -/
theorem T.declares_back {env : Env} {b : Bool} {cx cx' : Cx} {n n' : Node} (h : T env b cx n cx' n')
    (he : cx'.errs = []) {en vn : Ident} : declares en vn n' = true → declares en vn n = true := by
  have hkind : ∀ {k : Kind} {as as' : List Attr} {ks ks' : List Node}, declares en vn (.mk k as ks) = true →
      declares en vn (.mk k as' ks') = true := by
    intro k as as' ks ks' h
    cases k <;> first | cases h | skip
    rename_i i
    cases i <;> first | cases h | exact h
  induction h with
  | refl => exact id
  | trans h1 h2 ih1 ih2 => exact fun h => ih1 (errs_nil_of_prefix h2.errs_mono he) (ih2 he h)
  | book h => exact id
  | kid _ _ _ ih => exact hkind
  | wrapVal _ _ => exact hkind
  | wrapArm _ _ => exact hkind
  | wrapBlock hv hk => exact hkind
  | fill hv hk => exact hkind
  | marker => exact fun h => by cases h
  | tryOp => exact fun h => by cases h
  | dropAttr _ hf =>
    obtain ⟨k, as, as', ks, rfl, rfl⟩ := findRemove_root hf
    exact hkind
  | unmark _ hne => exact absurd he hne
  | badMark => exact fun h => by cases h
  | dropRec hf =>
    obtain ⟨k, as, as', ks, rfl, rfl⟩ := findRemove_root hf
    exact hkind
  | child _ hf _ hnew h1 h2 heq ih1 ih2 =>
    obtain ⟨k, as, as', ks, rfl, rfl⟩ := findRemove_root hf
    obtain ⟨e2, ech⟩ := join_nil heq he
    exact fun h => hkind (ih1 e2 (ih2 ech h))
  | exPlain h1 hv ih => exact ih he
  | exErr _ hne ih => exact absurd he hne
  | exTwo => simp [Cx.error] at he
  | exExpr h1 _ ih => exact fun h => by cases h
  | exKid _ _ ih => exact hkind
  | exPat hp _ ih => exact fun h => by cases ih he h
  | exFn h1 _ ih => exact fun h => by cases h
  | exSetup hs _ ih => exact ih he

section

variable {en vn : Ident}

theorem every_append {P : Node → Prop} {a b : List Node} :
    (∀ x ∈ declBlocksL en vn (a ++ b), P x) ↔
      (∀ x ∈ declBlocksL en vn a, P x) ∧ ∀ x ∈ declBlocksL en vn b, P x := by
  simp only [declBlocksL_append, List.mem_append]
  exact ⟨fun h => ⟨fun x hx => h x (.inl hx), fun x hx => h x (.inr hx)⟩, fun h x hx => hx.elim (h.1 x) (h.2 x)⟩

theorem every_mk {P : Node → Prop} {k : Kind} {as : List Attr} {ks : List Node} :
    Every en vn P (.mk k as ks) ↔
      (declaring en vn (.mk k as ks) = true → P (.mk k as ks)) ∧ ∀ b ∈ declBlocksL en vn ks, P b := by
  unfold Every
  rw [declBlocks_mk]
  simp only [List.mem_append]
  constructor
  · intro h
    exact ⟨fun hd => h _ (.inl (by rw [if_pos hd]; simp)), fun b hb => h b (.inr hb)⟩
  · rintro ⟨h1, h2⟩ b (hb | hb)
    · split at hb
      · rename_i hd; rw [List.mem_singleton] at hb; subst hb; exact h1 hd
      · cases hb
    · exact h2 b hb

theorem every_kid {P : Node → Prop} {k : Kind} {as : List Attr} {pre post : List Node} {n : Node} :
    Every en vn P (.mk k as (pre ++ n :: post)) ↔
      (declaring en vn (.mk k as (pre ++ n :: post)) = true → P (.mk k as (pre ++ n :: post))) ∧
      (∀ b ∈ declBlocksL en vn pre, P b) ∧ Every en vn P n ∧ ∀ b ∈ declBlocksL en vn post, P b := by
  rw [every_mk, every_append, declBlocksL_cons]
  simp only [List.mem_append]
  constructor
  · rintro ⟨h1, h2, h3⟩
    exact ⟨h1, h2, fun b hb => h3 b (.inl hb), fun b hb => h3 b (.inr hb)⟩
  · rintro ⟨h1, h2, h3, h4⟩
    exact ⟨h1, h2, fun b hb => hb.elim (h3 b) (h4 b)⟩

/-- A changed statement does not take a declaration away. -/
theorem declaring_kid {k : Kind} {as : List Attr} {pre post : List Node} {n n' : Node} (hf : Fits k n n')
    (h : declaring en vn (.mk k as (pre ++ n :: post)) = true) :
    declaring en vn (.mk k as (pre ++ n' :: post)) = true := by
  simp only [declaring, Bool.and_eq_true, List.any_append, List.any_cons, Bool.or_eq_true] at h ⊢
  refine ⟨h.1, ?_⟩
  rcases h.2 with h1 | h1 | h1
  · exact .inl h1
  · obtain ⟨i, hi⟩ := declares_item h1
    rw [hf.1 h.1 i hi]
    exact .inr (.inl h1)
  · exact .inr (.inr h1)

/-- The blocks are the same. -/
theorem every_congr {P : Node → Prop} {n n' : Node} (h : declBlocks en vn n' = declBlocks en vn n) :
    Every en vn P n' ↔ Every en vn P n := by unfold Every; rw [h]

theorem declBlocks_try (cx : Cx) (as : List Attr) (e : Node) :
    declBlocks en vn (.mk .eMatch as (e :: tryArms (cx.nextExpr (pathE (.ofIdents ["err"]))).2)) =
      declBlocks en vn (.mk .eTry as [e]) := by
  rw [declBlocks_plain rfl, declBlocks_plain rfl]
  simp only [declBlocksL_cons, declBlocksL_nil, List.append_nil, tryArms]
  have h1 := declBlocks_next (en := en) (vn := vn) cx [] (pathE (.ofIdents ["err"]))
  simp only [Cx.nextExpr]
  simp [declBlocks_plain (show (Kind.arm _).isBlockLike = false from rfl),
    declBlocks_plain (show (Kind.ePath _ _).isBlockLike = false from rfl), exprBlock, semiS, pathE,
    declBlocks_none (k := .eBlock none), declares,
    declBlocks_plain (show (Kind.sExpr _).isBlockLike = false from rfl),
    declBlocks_plain (show Kind.eReturn.isBlockLike = false from rfl),
    declBlocks_plain (show Kind.eCall.isBlockLike = false from rfl)]
  simpa [pathE, declBlocks_plain (show (Kind.ePath _ _).isBlockLike = false from rfl)] using h1

theorem declBlocks_zero (n : Node) : decls en vn n = 0 → declBlocks en vn n = [] := by
  induction n using Node.ind with
  | h k as ks ih =>
    intro hd
    have hn : ¬declaring en vn (.mk k as ks) = true := by
      intro h
      have := declaring_decls (n := .mk k as ks) h
      omega
    rw [decls_eq, weigh_mk] at hd
    have hl : ∀ l : List Node, (∀ c ∈ l, c ∈ ks) → weighL (isDecl en vn) l = 0 → declBlocksL en vn l = [] := by
      intro l
      induction l with
      | nil => simp
      | cons a l ihl =>
        intro hm h0
        rw [weighL_cons] at h0
        rw [declBlocksL_cons, ih a (hm a (by simp)) (by rw [decls_eq]; omega),
          ihl (fun c hc => hm c (by simp [hc])) (by omega)]
        rfl
    rw [declBlocks_mk, if_neg hn, hl ks (fun _ h => h) (by omega)]
    rfl

theorem uses_enum (cx : Cx) : uses en vn cx.buildEnum = 0 := by
  simp [uses_eq, Cx.buildEnum, isUse]

theorem plain_of_let {k : Kind} (hk : (∃ b, k = .sExpr b) ∨ ∃ p, k = .sLocal p) : k.isBlockLike = false := by
  rcases hk with ⟨b, rfl⟩ | ⟨l, rfl⟩ <;> rfl

theorem plain_of_jump {k : Kind} (hk : k = .eReturn ∨ ∃ l, k = .eBreak l) : k.isBlockLike = false := by
  rcases hk with rfl | ⟨l, rfl⟩ <;> rfl

theorem declBlocks_wrap {k : Kind} (cx : Cx) (as : List Attr) (ss : List Node) :
    declBlocks en vn (.mk k as [tailS (cx.nextExpr (exprBlock ss)).2]) = declBlocks en vn (exprBlock ss) := by
  rw [declBlocks_none (by simp [declares, tailS])]
  simp only [declBlocksL_cons, declBlocksL_nil, List.append_nil, tailS,
    declBlocks_plain (show (Kind.sExpr _).isBlockLike = false from rfl), Cx.nextExpr, declBlocks_next]

theorem declBlocks_fill {k : Kind} (hk : k = .eReturn ∨ ∃ l, k = .eBreak l) (cx : Cx) (as : List Attr) :
    declBlocks en vn (.mk k as [(cx.nextExpr unitE).2]) = declBlocks en vn (.mk k as []) := by
  rw [declBlocks_plain (plain_of_jump hk), declBlocks_plain (plain_of_jump hk), declBlocksL_cons, Cx.nextExpr,
    declBlocks_next, unitE, declBlocks_plain rfl]
  simp

theorem declBlocks_build (cx : Cx) (e : Node) (ho : Other en vn cx) :
    declBlocks en vn (buildExpr cx.buildEnum e) = declBlocks en vn e := by
  have hd : declares en vn cx.buildEnum = false := Bool.eq_false_iff.mpr fun hd => declares_enum.mp hd ho
  rw [buildExpr, exprBlock, declBlocks_none (by rw [List.any_cons, hd]; simp [tailS, declares])]
  simp [tailS, declBlocks_plain (show (Kind.sExpr _).isBlockLike = false from rfl), declBlocks_enum]

end

/-- Blocks that declare the variant have only one declaration, if this is so in the end. -/
theorem T.single_back {env : Env} {b : Bool} {cx cx' : Cx} {n n' : Node} (h : T env b cx n cx' n')
    (he : cx'.errs = []) {en vn : Ident} (hs : Every en vn (fun b => decls en vn b = 1) n') :
    Every en vn (fun b => decls en vn b = 1) n := by
  induction h with
  | refl => exact hs
  | trans h1 h2 ih1 ih2 => exact ih1 (errs_nil_of_prefix h2.errs_mono he) (ih2 he hs)
  | book h => exact hs
  | kid _ hf h ih =>
    have hm := h.decls_le he en vn
    rw [every_kid] at hs ⊢
    refine ⟨fun hd => ?_, hs.2.1, ih he hs.2.2.1, hs.2.2.2⟩
    have h1 := hs.1 (declaring_kid hf hd)
    have h2 := declaring_decls hd
    simp only [decls_eq, weigh_mk, weighL_append, weighL_cons] at *
    omega
  | wrapVal _ hk =>
    rename_i cx k as e rest _
    have hb := plain_of_jump hk
    refine (every_congr ?_).mp hs
    rw [declBlocks_plain hb, declBlocks_plain hb, declBlocksL_cons, declBlocksL_cons, Cx.nextExpr, declBlocks_next]
  | wrapArm _ _ =>
    refine (every_congr ?_).mp hs
    rw [declBlocks_plain rfl, declBlocks_plain rfl, declBlocksL_append, declBlocksL_append, declBlocksL_cons,
      declBlocksL_cons, Cx.nextExpr, declBlocks_next]
  | wrapBlock hv hk =>
    rename_i k cx as ss
    have hs := (every_congr (declBlocks_wrap _ _ _)).mp hs
    refine every_reroot (fun _ => rfl) (fun _ h => h) (fun h => ?_) hs
    have h2 : isDecl en vn (k, as) = 0 := by rcases hk with rfl | ⟨l, rfl⟩ <;> rfl
    rw [← h, decls_eq, decls_eq, weigh_mk, weigh_mk, h2]
    rfl
  | fill hv hk => exact (every_congr (declBlocks_fill hk _ _)).mp hs
  | marker =>
    refine (every_congr ?_).mp hs
    rw [declBlocks_next, declBlocks_plain rfl]
    simp
  | tryOp => exact (every_congr (declBlocks_try _ _ _)).mp hs
  | dropAttr _ hf =>
    obtain ⟨k, as, as', ks, rfl, rfl⟩ := findRemove_root hf
    refine every_reroot id (fun _ h => h) (fun h => ?_) hs
    rw [← h, decls_findRemove hf]
  | unmark _ hne => exact absurd he hne
  | badMark => simp [Cx.error] at he
  | dropRec => simp [Cx.error] at he
  | child _ hf _ hnew h1 h2 heq ih1 ih2 =>
    obtain ⟨e2, ech⟩ := join_nil heq he
    have := ih1 e2 (ih2 ech hs)
    obtain ⟨k, as, as', ks, rfl, rfl⟩ := findRemove_root hf
    refine every_reroot id (fun _ h => h) (fun h => ?_) this
    rw [← h, decls_findRemove hf]
  | exPlain h1 hv ih => exact ih he hs
  | exErr _ hne _ => exact absurd he hne
  | exTwo => simp [Cx.error] at he
  | exExpr h1 _ ih =>
    refine ih he fun b hb => hs b ?_
    rw [buildExpr, exprBlock, declBlocks_mk]
    simp [tailS, declBlocks_plain (show (Kind.sExpr _).isBlockLike = false from rfl), hb]
  | exKid hk _ ih =>
    have hb := plain_of_let hk
    intro b hb'
    rw [declBlocks_plain hb, declBlocksL_cons, List.mem_append] at hb'
    rcases hb' with hb' | hb'
    · refine ih he (fun b hb' => hs b ?_) b hb'
      rw [declBlocks_plain hb, declBlocksL_cons, List.mem_append]
      exact .inl hb'
    · refine hs b ?_
      rw [declBlocks_plain hb, declBlocksL_cons, List.mem_append]
      exact .inr hb'
  | exPat hp _ ih =>
    refine (every_congr ?_).mp (ih he hs)
    rw [declBlocks_plain rfl, declBlocks_plain rfl]
  | exFn h1 _ ih =>
    refine ih he ?_
    intro b hb
    rw [declBlocks_plain rfl] at hb
    have hs' := hs
    unfold Every at hs'
    rw [declBlocks_plain rfl] at hs'
    simp only [declBlocksL_cons, declBlocksL_nil, List.append_nil] at hb hs'
    have hs2 := every_mk.mp hs'
    refine every_mk.mpr ⟨fun hd => ?_, fun b hb => hs2.2 b (by simp [declBlocks_enum, hb])⟩ b hb
    have h1 := hs2.1 (by
      simp only [declaring, Bool.and_eq_true, List.any_cons, Bool.or_eq_true] at hd ⊢
      exact ⟨hd.1, .inr hd.2⟩)
    have h2 := declaring_decls hd
    simp only [decls_eq, weigh_mk, weighL_cons] at *
    omega
  | exSetup hs' _ ih => exact ih he hs

theorem every_findRemove {en vn : Ident} {n n' : Node} {s : String} {a : Attr}
    (hf : n.findRemoveAttr s = some (a, n')) (hu : Every en vn (fun b => uses en vn b = 1) n) :
    Every en vn (fun b => uses en vn b = 1) n' := by
  have hw := weigh_findRemove (isUse_attrs en vn) hf
  obtain ⟨k, as, as', ks, rfl, rfl⟩ := findRemove_root hf
  refine every_reroot id (fun _ h => h) (fun h => ?_) hu
  rw [uses_eq, hw]; exact h

/-- If in the end blocks that declare the variant have only one declaration, and the variant is used
outside of blocks that declare it only where none declares it, then blocks that declare it use it once. -/
theorem T.blocks {env : Env} {b : Bool} {cx cx' : Cx} {n n' : Node} (h : T env b cx n cx' n')
    (he : cx'.errs = []) {en vn : Ident} (hs : Every en vn (fun b => decls en vn b = 1) n')
    (h1 : freeUses en vn n = 0 ∨ decls en vn n' = 0)
    (h2 : if b then pending en vn cx = 0 else pending en vn cx' = 0 ∨ decls en vn n' = 0)
    (hu : Every en vn (fun b => uses en vn b = 1) n) :
    Every en vn (fun b => uses en vn b = 1) n' := by
  induction h with
  | refl => exact hu
  | trans t1 t2 ih1 ih2 =>
    have he1 := errs_nil_of_prefix t2.errs_mono he
    have hg := t2.grows'
    have hp := pending_mono (en := en) (vn := vn) hg.1 hg.2
    have hd := t2.decls_le he en vn
    simp only [Bool.false_eq_true, if_false] at h2 ih1 ih2
    refine ih2 he hs ?_ h2 (ih1 he1 (t2.single_back he hs) (by omega) (by omega) hu)
    rcases Nat.eq_zero_or_pos (decls en vn _) with h0 | h0
    · exact .inr h0
    · refine .inl (t1.scope he1 en vn (fun _ => ?_) (by omega))
      exact Classical.byContradiction fun hno => by have := pending_other.mp hno; omega
  | book h => exact hu
  | kid hk hf h ih =>
    rename_i k n n' cx cx' as pre post
    have hb := h.balance he en vn
    have hm := h.decls_le he en vn
    have hg := h.grows'
    have hp := pending_mono (en := en) (vn := vn) hg.1 hg.2
    simp only [Bool.false_eq_true, if_false] at h2 hb ih
    have hsr := T.single_back (.kid hk hf h) he hs
    rw [every_kid] at hs hu hsr ⊢
    refine ⟨fun hd' => ?_, hu.2.1, ?_, hu.2.2.2⟩
    · have hd : declaring en vn (.mk k as (pre ++ n :: post)) = true := by
        simp only [declaring, Bool.and_eq_true, List.any_append, List.any_cons, Bool.or_eq_true] at hd' ⊢
        refine ⟨hd'.1, ?_⟩
        rcases hd'.2 with h1 | h1 | h1
        · exact .inl h1
        · exact .inr (.inl (h.declares_back he h1))
        · exact .inr (.inr h1)
      have a1 := hs.1 hd'
      have a2 := hu.1 hd
      have a3 := hsr.1 hd
      simp only [decls_eq, uses_eq, weigh_mk, weighL_append, weighL_cons] at *
      omega
    · by_cases hd : declaring en vn (.mk k as (pre ++ n :: post)) = true
      · have hd' := declaring_kid hf hd
        have a1 := hs.1 hd'
        simp only [declaring, Bool.and_eq_true, List.any_append, List.any_cons, Bool.or_eq_true] at hd
        by_cases hn : declares en vn n = true
        · obtain ⟨i, hi⟩ := declares_item hn
          rw [hf.1 hd.1 i hi]
          exact hu.2.2.1
        · have : decls en vn n' = 0 := by
            rcases hd.2 with h1 | h1 | h1
            · have := any_decls h1
              simp only [decls_eq, weigh_mk, weighL_append, weighL_cons] at *
              omega
            · exact absurd h1 hn
            · have := any_decls h1
              simp only [decls_eq, weigh_mk, weighL_append, weighL_cons] at *
              omega
          exact ih he hs.2.2.1 (.inr this) (.inr this) hu.2.2.1
      · have hle : decls en vn n' ≤ decls en vn (.mk k as (pre ++ n' :: post)) := by
          simp only [decls_eq, weigh_mk, weighL_append, weighL_cons]; omega
        refine ih he hs.2.2.1 ?_ (by omega) hu.2.2.1
        rw [freeUses_mk, if_neg (show ¬(k.isBlockLike && (pre ++ n :: post).any (declares en vn)) = true from hd)] at h1
        simp only [freeUsesL_append, freeUsesL_cons] at h1
        omega
  | wrapVal _ hk =>
    have hb := plain_of_jump hk
    refine (every_congr ?_).mp hu
    rw [declBlocks_plain hb, declBlocks_plain hb, declBlocksL_cons, declBlocksL_cons, Cx.nextExpr, declBlocks_next]
  | wrapArm _ _ =>
    refine (every_congr ?_).mp hu
    rw [declBlocks_plain rfl, declBlocks_plain rfl, declBlocksL_append, declBlocksL_append, declBlocksL_cons,
      declBlocksL_cons, Cx.nextExpr, declBlocks_next]
  | wrapBlock hv hk =>
    rename_i k cx as ss
    refine (every_congr (declBlocks_wrap _ _ _)).mpr ?_
    refine every_reroot (fun _ => ?_) (fun _ h => h) (fun h => ?_) hu
    · rcases hk with rfl | ⟨l, rfl⟩ <;> rfl
    · have h2 : isUse en vn (k, as) = 0 := by rcases hk with rfl | ⟨l, rfl⟩ <;> rfl
      rw [← h, uses_eq, uses_eq, weigh_mk, weigh_mk, h2]
      rfl
  | fill hv hk => exact (every_congr (declBlocks_fill hk _ _)).mpr hu
  | marker =>
    refine (every_congr ?_).mp hu
    rw [declBlocks_next, declBlocks_plain rfl]
    simp
  | tryOp => exact (every_congr (declBlocks_try _ _ _)).mpr hu
  | dropAttr _ hf =>
    exact every_findRemove hf hu
  | unmark _ hne => exact absurd he hne
  | badMark => simp [Cx.error] at he
  | dropRec => simp [Cx.error] at he
  | child _ hf _ hnew t1 t2 heq ih1 ih2 =>
    obtain ⟨e2, ech⟩ := join_nil heq he
    have hd := t2.decls_le ech en vn
    have hpb := pending_book (en := en) (vn := vn) (join_core heq)
    simp only [Bool.false_eq_true, if_false, if_true] at h2 ih1 ih2
    rw [← freeUses_findRemove hf] at h1
    have hu1 := every_findRemove hf hu
    refine ih2 ech hs ?_ (pending_zero (new_fresh hnew).variants)
      (ih1 e2 (t2.single_back ech hs) (by omega) (by omega) hu1)
    rcases Nat.eq_zero_or_pos (decls en vn _) with h0 | h0
    · exact .inr h0
    · refine .inl (t1.scope e2 en vn (fun _ => ?_) (by omega))
      exact Classical.byContradiction fun hno => by have := pending_other.mp hno; omega
  | exPlain t hv ih =>
    simp only [Bool.false_eq_true, if_false] at ih
    exact ih he hs h1 (.inl (pending_zero hv)) hu
  | exErr _ hne _ => exact absurd he hne
  | exTwo => simp [Cx.error] at he
  | exExpr t hlen ih =>
    rename_i cx e cx' e'
    simp only [Bool.false_eq_true, if_false, if_true] at ih h2
    have hb := t.balance he en vn
    have hm := t.decls_le he en vn
    have hd : decls en vn (buildExpr cx'.buildEnum e') = pending en vn cx' + decls en vn e' := by
      rw [← decls_enum]
      simp [decls_eq, buildExpr, exprBlock, tailS, isDecl]
    by_cases ho : Other en vn cx'
    · refine (every_congr (declBlocks_build _ _ ho)).mpr (ih he ((every_congr (declBlocks_build _ _ ho)).mp hs) ?_
        (.inl (Nat.eq_zero_of_not_pos fun h => pending_other.mpr h ho)) hu)
      omega
    · have hp := pending_other.mp ho
      have hr := every_mk.mp hs
      have hdr : declaring en vn (buildExpr cx'.buildEnum e') = true := by
        rw [buildExpr, exprBlock, declaring, List.any_cons, declares_enum.mpr ho]; rfl
      have a1 := hr.1 hdr
      rw [← exprBlock, ← buildExpr, hd] at a1
      have a2 : uses en vn e = 0 := by rw [← uses_freeUses e (by omega)]; omega
      have a3 : uses en vn (buildExpr cx'.buildEnum e') = uses en vn e' := by
        have := uses_enum (en := en) (vn := vn) cx'
        simp only [uses_eq, buildExpr, exprBlock, tailS, weigh_mk, weighL_cons, weighL_nil] at this ⊢
        simp only [isUse] at this ⊢
        omega
      simp only [Bool.false_eq_true, if_false] at hb
      refine every_mk.mpr ⟨fun _ => ?_, ?_⟩
      · rw [← exprBlock, ← buildExpr, a3]; omega
      · simp [declBlocks_enum, tailS, declBlocks_plain (show (Kind.sExpr _).isBlockLike = false from rfl),
          declBlocks_zero (en := en) (vn := vn) e' (by omega)]
  | exKid hk t ih =>
    have hb := plain_of_let hk
    unfold Every at hs hu ⊢
    rw [declBlocks_plain hb, declBlocksL_cons] at hs hu ⊢
    simp only [List.mem_append] at hs hu ⊢
    rintro b (hb' | hb')
    · refine ih he (fun b h => hs b (.inl h)) ?_ h2 (fun b h => hu b (.inl h)) b hb'
      rw [freeUses_plain hb, freeUsesL_cons] at h1
      simp only [decls_eq, weigh_mk, weighL_cons] at h1 ⊢
      omega
    · exact hu b (.inr hb')
  | exPat hp t ih =>
    refine ih he hs ?_ h2 ?_
    · rw [freeUses_plain rfl] at h1 ⊢
      simpa [isUse] using h1
    · refine (every_congr ?_).mp hu
      rw [declBlocks_plain rfl, declBlocks_plain rfl]
  | exFn t hlen ih =>
    rename_i cx n cx' name ret as asb ss
    simp only [Bool.false_eq_true, if_false, if_true] at ih h2
    have hb := t.balance he en vn
    have hm := t.decls_le he en vn
    simp only [Bool.false_eq_true, if_false] at hb
    have hD : decls en vn (.mk (.iFn name ret) as [.mk .block asb (cx'.buildEnum :: ss)]) =
        pending en vn cx' + decls en vn (.mk (.iFn name ret) as [.mk .block asb ss]) := by
      rw [← decls_enum]
      simp only [decls_eq, weigh_mk, weighL_cons, weighL_nil]; omega
    have hD' : decls en vn (.mk .block asb (cx'.buildEnum :: ss)) =
        pending en vn cx' + decls en vn (.mk (.iFn name ret) as [.mk .block asb ss]) := by
      rw [← hD]; simp [decls_eq, isDecl]
    have hU : uses en vn (.mk .block asb (cx'.buildEnum :: ss)) =
        uses en vn (.mk (.iFn name ret) as [.mk .block asb ss]) := by
      have := uses_enum (en := en) (vn := vn) cx'
      simp only [uses_eq, weigh_mk, weighL_cons, weighL_nil] at this ⊢
      simp only [isUse] at this ⊢
      omega
    have hS := T.single_back (.exFn t hlen) he hs
    unfold Every at hs ⊢
    rw [declBlocks_plain rfl] at hs ⊢
    simp only [declBlocksL_cons, declBlocksL_nil, List.append_nil] at hs ⊢
    have hs2 := every_mk.mp hs
    by_cases ho : Other en vn cx'
    · have hp0 : pending en vn cx' = 0 := Nat.eq_zero_of_not_pos fun h => pending_other.mpr h ho
      have hd : declares en vn cx'.buildEnum = false := Bool.eq_false_iff.mpr fun hd => declares_enum.mp hd ho
      have hdd : declaring en vn (.mk .block asb (cx'.buildEnum :: ss)) = declaring en vn (.mk .block asb ss) := by
        simp only [declaring, List.any_cons, hd, Bool.false_or]
      have hsf : Every en vn (fun b => decls en vn b = 1) (.mk (.iFn name ret) as [.mk .block asb ss]) := by
        unfold Every
        rw [declBlocks_plain rfl]
        simp only [declBlocksL_cons, declBlocksL_nil, List.append_nil]
        refine every_mk.mpr ⟨fun h => ?_, fun b hb => hs2.2 b (by simp [declBlocks_enum, hb])⟩
        have := hs2.1 (hdd.trans h)
        rw [hD', hp0] at this
        rw [← this]; simp [decls_eq, isDecl]
      have hq := ih he hsf (by omega) (.inl hp0) hu
      unfold Every at hq
      rw [declBlocks_plain rfl] at hq
      simp only [declBlocksL_cons, declBlocksL_nil, List.append_nil] at hq
      have hq2 := every_mk.mp hq
      refine every_mk.mpr ⟨fun h => ?_, fun b hb => hq2.2 b (by simpa [declBlocks_enum] using hb)⟩
      have := hq2.1 (hdd.symm.trans h)
      rw [hU, ← this]; simp [uses_eq, isUse]
    · have hp := pending_other.mp ho
      have hdr : declaring en vn (.mk .block asb (cx'.buildEnum :: ss)) = true := by
        rw [declaring, List.any_cons, declares_enum.mpr ho]; rfl
      have a1 := hs2.1 hdr
      rw [hD'] at a1
      have a2 : uses en vn n = 0 := by rw [← uses_freeUses n (by omega)]; omega
      refine every_mk.mpr ⟨fun _ => ?_, ?_⟩
      · rw [hU]; omega
      · have hz := declBlocks_zero (en := en) (vn := vn) (.mk (.iFn name ret) as [.mk .block asb ss]) (by omega)
        rw [declBlocks_plain rfl] at hz
        simp only [declBlocksL_cons, declBlocksL_nil, List.append_nil, declBlocks_mk, List.append_eq_nil_iff] at hz
        simp [declBlocks_enum, hz.2]
  | exSetup hs' _ ih =>
    refine ih he hs h1 ?_ hu
    simp only [if_true, pending, hs'.ident, hs'.variants] at h2 ⊢
    exact h2

end AutoEnums
