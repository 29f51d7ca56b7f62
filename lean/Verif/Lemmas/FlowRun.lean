import Verif.Lemmas.Flow

/-! # What runs do to `return`s and `?`s -/

namespace AutoEnums

open Spec Judg

/-- What a context does to the exits of its own function. -/
def fate (cx : Cx) (a b : Exit) : Prop :=
  match cx.mode with
  | .default => a.Kept b
  | .ret _ => a.RetFate cx.ident cx.marker b
  | .try_ => a.TryFate cx.marker b

theorem Same.fate {a b : Cx} (h : Same a b) : fate b = fate a := by
  funext x y; unfold AutoEnums.fate; rw [h.mode, h.ident, h.marker]

theorem call_becomes {p : Path} {v : Val} (h : (Val.call p).Becomes v) : v = .call p := by
  rcases h with h | ⟨_, h⟩ | h
  · exact h
  · cases h
  · cases h

theorem fate_kept {cx : Cx} {a b c : Exit} (h : fate cx a b) (h' : b.Kept c) : fate cx a c := by
  unfold fate at h ⊢
  have hv : ∀ p, b.value = some (.call p) → c.value = some (.call p) := by
    intro p hp
    have := h'.2
    rw [hp] at this
    cases hc : c.value with
    | none => rw [hc] at this; exact this.elim
    | some v => rw [hc] at this; rw [call_becomes this]
  split at h
  · exact h.trans h'
  · unfold Exit.RetFate at h ⊢
    split at h
    · rename_i hc
      rw [if_pos hc]
      obtain ⟨h1, i, h2⟩ := h
      exact ⟨h'.1.trans h1, i, hv _ h2⟩
    · rename_i hc
      rw [if_neg hc]
      exact h.trans h'
  · unfold Exit.TryFate at h ⊢
    split at h
    · rename_i hc
      rw [if_pos hc]
      exact ⟨h'.1.trans h.1, hv _ h.2⟩
    · rename_i hc
      rw [if_neg hc]
      exact h.trans h'

/-- Exits that do not belong to the function are left alone. -/
theorem fate_of_loc {cx : Cx} {a b : Exit} (hl : a.loc.closure = true ∨ a.loc.tokens = true)
    (h : a.Kept b) : fate cx a b := by
  have ho : ∀ m, a.ours m = false := by
    intro m
    rcases hl with hl | hl <;> simp [Exit.ours, hl]
  unfold fate
  split
  · exact h
  · unfold Exit.RetFate; rw [if_neg (by simp [ho])]; exact h
  · unfold Exit.TryFate; rw [if_neg (by simp [ho])]; exact h

theorem enter_mono (w : Where) (k : Kind) :
    (w.closure = true → (w.enter k).closure = true) ∧ (w.tokens = true → (w.enter k).tokens = true) := by
  cases k <;> simp [Where.enter]

theorem exits_loc_mono (cl : Bool) : ∀ (n : Node) (w : Where),
    (w.closure = true → ∀ a ∈ exits cl w n, a.loc.closure = true) ∧
    (w.tokens = true → ∀ a ∈ exits cl w n, a.loc.tokens = true) := by
  intro n
  induction n using Node.ind with
  | h k as ks ih =>
    intro w
    have hl : ∀ (l : List Node), (∀ c ∈ l, c ∈ ks) → ∀ w : Where,
        (w.closure = true → ∀ a ∈ exitsL cl w l, a.loc.closure = true) ∧
        (w.tokens = true → ∀ a ∈ exitsL cl w l, a.loc.tokens = true) := by
      intro l
      induction l with
      | nil => intro _ w; simp [exitsL]
      | cons c l ihl =>
        intro hm w
        have h1 := ih c (hm c (by simp)) w
        have h2 := ihl (fun x hx => hm x (by simp [hx])) w
        simp only [exitsL, List.mem_append]
        exact ⟨fun hw a ha => ha.elim (h1.1 hw a) (h2.1 hw a),
          fun hw a ha => ha.elim (h1.2 hw a) (h2.2 hw a)⟩
    have hk := hl ks (fun _ h => h) (w.enter k)
    have he := enter_mono w k
    unfold exits
    split
    · simp
    · simp only [List.mem_append]
      constructor
      · rintro hw a ((ha | ha) | ha)
        · split at ha
          · simp only [List.mem_singleton] at ha; subst ha; exact he.1 hw
          · simp at ha
        · exact hk.1 (he.1 hw) a ha
        · split at ha
          · simp only [List.mem_singleton] at ha; subst ha; exact he.1 hw
          · simp at ha
      · rintro hw a ((ha | ha) | ha)
        · split at ha
          · simp only [List.mem_singleton] at ha; subst ha; exact he.2 hw
          · simp at ha
        · exact hk.2 (he.2 hw) a ha
        · split at ha
          · simp only [List.mem_singleton] at ha; subst ha; exact he.2 hw
          · simp at ha

theorem exitsL_loc_mono (cl : Bool) (w : Where) : ∀ (l : List Node),
    (w.closure = true → ∀ a ∈ exitsL cl w l, a.loc.closure = true) ∧
    (w.tokens = true → ∀ a ∈ exitsL cl w l, a.loc.tokens = true)
  | [] => by simp [exitsL]
  | c :: l => by
    have h1 := exits_loc_mono cl c w
    have h2 := exitsL_loc_mono cl w l
    simp only [exitsL, List.mem_append]
    exact ⟨fun hw a ha => ha.elim (h1.1 hw a) (h2.1 hw a),
      fun hw a ha => ha.elim (h1.2 hw a) (h2.2 hw a)⟩

/-- The visit does not touch exits: no branch of `visit_mode` applies. -/
def Calmly (vk : VK) (sc : Scope) (cx : Cx) : Prop :=
  vk = .dummy ∨ cx.mode = .default ∨ sc.closure = true

/-- The visit of the function of the root attribute. -/
def Fateful (vk : VK) (sc : Scope) (cx : Cx) : Prop :=
  vk = .visitor ∧ cx.root = true ∧ cx.mode ≠ .default ∧ sc.closure = false

/-- `w` describes the scope. -/
def At (sc : Scope) (w : Where) : Prop :=
  w.closure = sc.closure ∧ w.tokens = false ∧ w.tryBlock = sc.tryBlock

/-- The exits of a function before and after. -/
structure W (cl : Bool) (sc : Scope) (cx : Cx) (n n' : Node) : Prop where
  exits : ∀ w, At sc w → Aligned (fate cx) (exits cl w n) (exits cl w n')
  top : Top n n'

/-- No attribute is an `auto_enum` attribute. -/
def Free (n : Node) : Prop := ∀ a ∈ allAttrs n, named "auto_enum" a = false

theorem Free.kids {k : Kind} {as : List Attr} {ks : List Node} (h : Free (.mk k as ks)) :
    ∀ c ∈ ks, Free c := by
  intro c hc a ha
  refine h a ?_
  rw [allAttrs_mk, List.mem_append]
  exact .inr (by
    induction ks with
    | nil => simp at hc
    | cons x l ih =>
      rw [attrsL_cons, List.mem_append]
      rcases List.mem_cons.mp hc with rfl | hc
      · exact .inl ha
      · exact .inr (ih (fun b hb => h b (by
          rw [allAttrs_mk, List.mem_append] at hb ⊢
          refine hb.imp id fun hb => ?_
          rw [attrsL_cons, List.mem_append]
          exact .inr hb)) hc))

theorem Free.sub {n : Node} (h : Free n) : ∀ c ∈ n.sub, Free c := by
  cases n with | mk k as ks =>
  rw [Node.sub_mk]
  split
  · simp
  · exact h.kids

theorem Free.mono {n n' : Node} (h : Free n) (hs : ∀ a ∈ allAttrs n', a ∈ allAttrs n) : Free n' :=
  fun a ha => h a (hs a ha)

theorem Free.not_named {n : Node} (h : Free n) : hasName n = false := by
  cases n with | mk k as ks =>
  simp only [hasName, List.any_eq_false]
  intro a ha
  rw [h a (by rw [allAttrs_mk, List.mem_append]; exact .inl ha)]
  simp

theorem visitMode_id {sc : Scope} {cx : Cx} {n : Node}
    (h : cx.mode = .default ∨ sc.closure = true) : (visitMode sc cx n).2 = n := by
  unfold visitMode visitReturn visitTry
  rcases h with h | h
  · rw [h]
  · split
    · simp [h]
    · simp [h]
    · rfl

theorem seen_mode (cx : Cx) (n : Node) : (seen cx n).mode = cx.mode := (Same.seen cx n).mode

/-- Before the kids are visited nothing happens to the exits. -/
theorem pre_calm_Z {vk : VK} {sc : Scope} {cx : Cx} {n : Node} (h : Calmly vk sc cx) :
    Z n (pre vk sc cx n).2 := by
  unfold pre
  split
  · have := nestedStep_Z sc (visitMode sc (seen cx n) n).1 (visitMode sc (seen cx n) n).2
    rw [visitMode_id (by
      rcases h with h | h
      · cases h
      · rw [seen_mode]; exact h)] at this ⊢
    exact this
  · exact .refl _

/-- How `visit_mode` treats the exits of the function of the root attribute. -/
inductive ModeCase (cx : Cx) (sc : Scope) (n n1 : Node) : Prop where
  | same : n1 = n →
      (∀ w ks' as', At sc w →
        valueKept (valueOf .ret n.kids) (valueOf .ret ks') →
        n.kind = .eReturn → fate cx ⟨.ret, w, isNever n.rawAttrs, valueOf .ret n.kids⟩
          ⟨.ret, w, isNever as', valueOf .ret ks'⟩) →
      (∀ w ks' as', At sc w →
        valueKept (valueOf .try_ n.kids) (valueOf .try_ ks') →
        n.kind = .eTry → fate cx ⟨.try_, w, isNever n.rawAttrs, valueOf .try_ n.kids⟩
          ⟨.try_, w, isNever as', valueOf .try_ ks'⟩) → ModeCase cx sc n n1
  | ret : n = .mk .eReturn as ks → cx.mode = .ret c → isNever as = false →
      valueOf .ret ks ≠ some (.mac ⟨false, [⟨cx.marker, none⟩]⟩) →
      n1 = .mk .eReturn as (construct [] cx.ident (variantIdent i) e :: rest) →
      (∀ cl w, exitsL cl w ks = exits cl w e ++ exitsL cl w rest) → ModeCase cx sc n n1
  | try_ : n = .mk .eTry as [e] → cx.mode = .try_ → isNever as = false → sc.tryBlock = false →
      valOf e ≠ .mac ⟨false, [⟨cx.marker, none⟩]⟩ →
      n1 = tryMatch as cx.ident (variantIdent i) e → ModeCase cx sc n n1

theorem isMarker_root {cx : Cx} (hr : cx.root = true) (p : Path) :
    cx.isMarker p = true ↔ p = ⟨false, [⟨cx.marker, none⟩]⟩ := by
  simp only [Cx.isMarker, hr, Bool.or_true, if_true, Cx.isMarkerExact]
  constructor
  · intro h
    unfold Path.isIdent at h
    split at h
    · rename_i i h1 h2
      cases p with | mk l s =>
      simp only [beq_iff_eq] at h
      subst h
      simp only at h1 h2
      rw [h1, h2]
    · cases h
  · rintro rfl
    simp [Path.isIdent]

theorem isMarkerExpr_root {cx : Cx} (hr : cx.root = true) (e : Node) :
    cx.isMarkerExpr e = true ↔ valOf e = .mac ⟨false, [⟨cx.marker, none⟩]⟩ := by
  cases e with | mk k as ks =>
  unfold Cx.isMarkerExpr
  split
  · rename_i p t _ _ heq
    cases heq
    rw [isMarker_root hr]
    simp [valOf]
  · rename_i hne
    simp only [Bool.false_eq_true, false_iff]
    cases k with
    | eMacro p t => exact absurd rfl (hne _ _ _ _)
    | eCall =>
      unfold valOf
      dsimp only
      split
      · simp
      · unfold calleeOf
        split
        · split <;> simp
        · split <;> simp
        · simp
    | _ =>
      unfold valOf
      dsimp only
      split <;> simp

theorem isNever_eq (as : List Attr) : isNever as = anyEmptyAttr as NEVER := by
  unfold isNever anyEmptyAttr
  congr 1
  funext a
  simp [Attr.isEmpty, ← named_iff, NEVER]

theorem never_ret {n : Node} {as : List Attr} {ks : List Node} {k : Kind} (h : n = .mk k as ks)
    (hk : k = .eReturn ∨ k = .eTry) : n.anyEmptyAttr NEVER = isNever as := by
  subst h
  rw [isNever_eq]
  rcases hk with rfl | rfl <;> rfl

theorem modeCase {sc : Scope} {cx : Cx} (n : Node) (hr : cx.root = true) (hc : sc.closure = false) :
    ModeCase cx sc n (visitMode sc cx n).2 := by
  cases n with | mk k as ks =>
  have keep : ∀ (x : ExitKind) (w : Where) (ks' : List Node) (as' : List Attr),
      valueKept (valueOf x ks) (valueOf x ks') →
      (⟨x, w, isNever as, valueOf x ks⟩ : Exit).Kept ⟨x, w, isNever as', valueOf x ks'⟩ :=
    fun x w ks' as' h => ⟨rfl, h⟩
  unfold visitMode
  split
  · rename_i c hm
    -- returns are wrapped
    have hsame : (k = .eReturn → isNever as = true ∨
        valueOf .ret ks = some (.mac ⟨false, [⟨cx.marker, none⟩]⟩)) →
        ModeCase cx sc (.mk k as ks) (.mk k as ks) := by
      intro h
      refine .same rfl ?_ ?_
      · intro w ks' as' hw hv hk
        simp only [fate, hm, Exit.RetFate]
        rw [if_neg]
        · exact keep _ _ _ _ hv
        · rcases h hk with h | h
          · simp [Exit.ours, h, Node.rawAttrs]
          · simp [Exit.ours, h, Node.kids]
      · intro w ks' as' hw hv hk
        simp only [fate, hm, Exit.RetFate]
        rw [if_neg (by simp)]
        exact keep _ _ _ _ hv
    unfold visitReturn
    split
    · rename_i hcond
      split
      · rename_i as0 ks0 heq
        cases heq
        rw [never_ret rfl (.inl rfl)] at hcond
        have hn : isNever as = false := by simpa [hc] using hcond
        unfold Cx.replaceBoxed
        split
        · refine .ret (i := cx.variants.length) (e := unitE) (rest := []) rfl hm hn (by simp [valueOf]) rfl ?_
          intro cl w; simp [exitsL, exits_unit]
        · rename_i e rest
          split
          · rename_i hmk
            refine hsame fun _ => .inr ?_
            simp [valueOf, (isMarkerExpr_root hr e).mp hmk]
          · rename_i hmk
            refine .ret (i := cx.variants.length) (e := e) (rest := rest) rfl hm hn ?_ rfl ?_
            · simp only [valueOf, List.head?_cons, Option.map_some, ne_eq, Option.some.injEq]
              exact fun h => hmk ((isMarkerExpr_root hr e).mpr h)
            · intro cl w; rfl
      · rename_i hne
        exact hsame fun hk => by subst hk; exact absurd rfl (hne _ _)
    · rename_i hcond
      refine hsame fun hk => .inl ?_
      rw [never_ret rfl (.inl hk)] at hcond
      simpa [hc] using hcond
  · rename_i hm
    have hsame : (k = .eTry → sc.tryBlock = true ∨ isNever as = true ∨ valueOf .try_ ks = none ∨
        valueOf .try_ ks = some (.mac ⟨false, [⟨cx.marker, none⟩]⟩)) →
        ModeCase cx sc (.mk k as ks) (.mk k as ks) := by
      intro h
      refine .same rfl ?_ ?_
      · intro w ks' as' hw hv hk
        simp only [fate, hm, Exit.TryFate]
        rw [if_neg (by simp)]
        exact keep _ _ _ _ hv
      · intro w ks' as' hw hv hk
        simp only [fate, hm, Exit.TryFate]
        rw [if_neg]
        · exact keep _ _ _ _ hv
        · rcases h hk with h | h | h | h
          · simp [hw.2.2, h]
          · simp [Exit.ours, h, Node.rawAttrs]
          · simp [h, Node.kids]
          · simp [Exit.ours, h, Node.kids]
    unfold visitTry
    split
    · rename_i hcond
      split
      · rename_i as0 e heq
        cases heq
        rw [never_ret rfl (.inr rfl)] at hcond
        simp only [hc, Bool.and_eq_true, Bool.not_eq_true', and_true] at hcond
        split
        · rename_i hmk
          refine hsame fun _ => .inr (.inr (.inr ?_))
          simp [valueOf, (isMarkerExpr_root hr e).mp hmk]
        · rename_i hmk
          exact .try_ (i := cx.variants.length) rfl hm hcond.2 hcond.1
            (fun h => hmk ((isMarkerExpr_root hr e).mpr h)) rfl
      · rename_i hne
        refine hsame fun hk => .inr (.inr (.inl ?_))
        subst hk
        unfold valueOf
        split
        · rename_i h; cases h
        · exact absurd rfl (hne _ _)
        · rfl
    · rename_i hcond
      refine hsame fun hk => ?_
      rw [never_ret rfl (.inr hk)] at hcond
      simp only [hc, Bool.and_eq_true, Bool.not_eq_true', not_and, Bool.not_eq_false] at hcond
      cases ht : sc.tryBlock
      · exact .inr (.inl (hcond ⟨ht, trivial⟩))
      · exact .inl rfl
  · rename_i hm
    refine .same rfl ?_ ?_
    · intro w ks' as' hw hv hk
      simp only [fate, hm]
      exact keep _ _ _ _ hv
    · intro w ks' as' hw hv hk
      simp only [fate, hm]
      exact keep _ _ _ _ hv

theorem at_enter {sc : Scope} {w : Where} {k : Kind} (h : At sc w) (hk : ∀ p t, k ≠ .eMacro p t) :
    At (sc.check k) (w.enter k) := by
  obtain ⟨h1, h2, h3⟩ := h
  cases k <;> first | exact absurd rfl (hk _ _) | exact ⟨h1, h2, h3⟩ | exact ⟨rfl, h2, h3⟩ | exact ⟨h1, h2, rfl⟩

theorem valOf_construct (en vn : Ident) (e : Node) :
    valOf (construct [] en vn e) = .call (variantPath en vn) := by
  simp [construct, valOf, calleeOf]

theorem exits_opaque {cl : Bool} {w : Where} {k : Kind} {as : List Attr} {ks : List Node}
    (ho : k.isOpaque = true) : ∀ a ∈ exits cl w (.mk k as ks), a.loc.tokens = true := by
  cases k with
  | eMacro p t =>
    intro a ha
    simp only [exits, skips, Bool.false_eq_true, if_false, reduceCtorEq, List.nil_append,
      List.append_nil] at ha
    exact (exitsL_loc_mono cl _ ks).2 rfl a ha
  | sMacro => simp [exits, skips]
  | sItem => simp [exits, skips]
  | eVerbatim => simp [exits, skips]
  | _ => cases ho

theorem exits_tryMatch (cl : Bool) (w : Where) (as : List Attr) (en vn : Ident) (e : Node) :
    exitsL cl w (tryMatch as en vn e).kids =
      exits cl w e ++ [⟨.ret, w, false, some (.call resultErr)⟩] := by
  simp [tryMatch, Node.kids, exitsL, exits, skips, Where.enter, construct, isNever, valueOf, valOf,
    calleeOf, resultErr]

theorem valueKept_call {p : Path} {v : Option Val} (h : valueKept (some (.call p)) v) :
    v = some (.call p) := by
  cases v with
  | none => exact h.elim
  | some v => rw [call_becomes h]

theorem fate_core {cl : Bool} {sc : Scope} {cx : Cx} {w : Where} {k : Kind} {as : List Attr}
    {ks ks' : List Node} {nA : Node} (hr : cx.root = true) (hc : sc.closure = false) (hw : At sc w)
    (hY : Y (visitMode (sc.check k) cx (.mk k as ks)).2 nA)
    (hQ : (sc.check k).closure = true → Aligned (Q cl) nA.sub ks')
    (hW : (sc.check k).closure = false → Aligned (W cl (sc.check k) cx) nA.sub ks') :
    Aligned (fate cx) (exits cl w (.mk k as ks)) (exits cl w (nA.rebuild ks')) := by
  cases hcl : (sc.check k).closure
  · have hW := hW hcl
    have hm := modeCase (.mk k as ks) hr hcl
    generalize (visitMode (sc.check k) cx (.mk k as ks)).2 = n1 at hm hY
    cases nA with | mk kA asA ksA =>
    rw [Node.rebuild_mk]
    cases hm with
    | same h1 h2 h3 =>
      subst h1
      have hkA : kA = k := hY.kind
      subst hkA
      rw [← hY.exits]
      cases ho : kA.isOpaque
      · rw [if_neg (by simp)]
        rw [Node.sub_mk, ho, if_neg (by simp)] at hW
        have hmac : ∀ p t, kA ≠ .eMacro p t := by
          rintro p t rfl; cases ho
        have ha := at_enter hw hmac
        have htop : Aligned Top ksA ks' := hW.imp fun _ _ h => h.top
        refine exits_node (fun _ _ => hW.length.symm) (fun _ => aligned_exitsL (hW.imp fun _ _ h => h.exits _ ha)) ?_ ?_
        · intro hk
          have hv := hY.values (.inl hk)
          simp only [Node.kids] at hv
          have := h2 (w.enter kA) ks' asA ha (by
            have := valueOf_kept htop .ret
            rw [hv] at this; exact this) hk
          simp only [Node.rawAttrs, Node.kids] at this
          rw [hv, show isNever asA = isNever as from hY.never]
          rw [show isNever asA = isNever as from hY.never] at this
          exact this
        · intro hk
          have hv := hY.values (.inr hk)
          simp only [Node.kids] at hv
          have := h3 (w.enter kA) ks' asA ha (by
            have := valueOf_kept htop .try_
            rw [hv] at this; exact this) hk
          simp only [Node.rawAttrs, Node.kids] at this
          rw [hv, show isNever asA = isNever as from hY.never]
          rw [show isNever asA = isNever as from hY.never] at this
          exact this
      · rw [if_pos rfl]
        exact .refl_mem fun a ha => fate_of_loc (.inr (exits_opaque ho a ha)) (.refl a)
    | @ret as0 ks0 c i e rest h1 h2 h3 h4 h5 h6 =>
      cases h1
      subst h5
      have hkA : kA = .eReturn := hY.kind
      subst hkA
      rw [if_neg (by simp [Kind.isOpaque])]
      rw [Node.sub_mk, if_neg (by simp [Kind.isOpaque])] at hW
      have ha : At (sc.check .eReturn) w := hw
      have htop : Aligned Top ksA ks' := hW.imp fun _ _ h => h.top
      have hv := hY.values (.inl rfl) .ret
      simp only [Node.kids] at hv
      have hkids : Aligned (fate cx) (exitsL cl w ks) (exitsL cl w ks') := by
        have h7 := aligned_exitsL (hW.imp fun _ _ h => h.exits _ ha)
        have h8 := hY.kids cl w
        simp only [Node.kids] at h8
        rw [h8] at h7
        rw [h6]
        simp only [exitsL] at h7
        rw [show exits cl w (construct [] cx.ident (variantIdent i) e) = exits cl w e from
          exits_call cl w [] _ e] at h7
        exact h7
      refine exits_node (fun _ h => by cases h) (fun _ => hkids) (fun _ => ?_) (fun h => by cases h)
      simp only [fate, h2, Exit.RetFate]
      rw [if_pos]
      · refine ⟨trivial, i, ?_⟩
        have h9 := valueOf_kept htop .ret
        rw [hv] at h9
        simp only [valueOf, List.head?_cons, Option.map_some, valOf_construct] at h9
        exact valueKept_call h9
      · refine ⟨trivial, ?_⟩
        simp only [Exit.ours, Where.enter]
        simp [hw.1, hc, hw.2.1, h3, h4]
    | @try_ as0 e i h1 h2 h3 h4 h5 h6 =>
      cases h1
      subst h6
      have hkA : kA = .eMatch := hY.kind
      subst hkA
      rw [if_neg (by simp [Kind.isOpaque])]
      rw [Node.sub_mk, if_neg (by simp [Kind.isOpaque])] at hW
      have ha : At (sc.check .eMatch) w := hw
      have h7 := aligned_exitsL (hW.imp fun _ _ h => h.exits _ ha)
      have h8 := hY.kids cl w
      rw [exits_tryMatch] at h8
      simp only [Node.kids] at h8
      rw [h8] at h7
      obtain ⟨l1, l2, h9, h10, h11⟩ := h7.append_inv
      have e1 : exits cl w (.mk .eTry as [e]) = exits cl w e ++
          [⟨.try_, w, isNever as, some (valOf e)⟩] := by
        simp [exits, exitsL, skips, Where.enter, valueOf]
      have e2 : exits cl w (.mk .eMatch asA ks') = exitsL cl w ks' := by
        simp [exits, skips, Where.enter]
      rw [e1, e2, h9]
      refine h10.append ?_
      cases h11 with
      | cons h12 h13 =>
        cases h13
        refine .cons ?_ .nil
        simp only [fate, h2, Exit.TryFate] at h12 ⊢
        rw [if_neg (by simp)] at h12
        rw [if_pos]
        · exact ⟨h12.1, valueKept_call h12.2⟩
        · refine ⟨trivial, ?_, ?_, rfl⟩
          · simp [Exit.ours, hw.1, hc, hw.2.1, h3, h5]
          · rw [hw.2.2]; exact h4
  · replace hQ := hQ hcl
    have hk : ∃ i, k = .eClosure i := by
      cases k <;> simp_all [Scope.check]
    obtain ⟨i, rfl⟩ := hk
    rw [visitMode_id (.inr hcl)] at hY
    cases nA with | mk kA asA ksA =>
    have hkA : kA = .eClosure i := hY.kind
    subst hkA
    rw [← hY.exits, Node.rebuild_mk, if_neg (by simp [Kind.isOpaque])]
    rw [Node.sub_mk, if_neg (by simp [Kind.isOpaque])] at hQ
    refine exits_node (fun _ h => by cases h) (fun _ => ?_) (fun h => by cases h) (fun h => by cases h)
    refine (aligned_exitsL (hQ.imp fun _ _ h => h.exits _)).imp_mem fun a ha b hb => ?_
    exact fate_of_loc (.inl ((exitsL_loc_mono cl _ _).1 rfl a ha)) hb

theorem visitMode_attrs (sc : Scope) (cx : Cx) (n : Node) :
    ∀ a ∈ allAttrs (visitMode sc cx n).2, a ∈ allAttrs n := by
  unfold visitMode
  split
  · unfold visitReturn
    split
    · split
      · unfold Cx.replaceBoxed
        split
        · simp [allAttrs_mk, attrsL_cons, Cx.nextExpr, Cx.nextExprAttrs, attrs_call, unitE]
        · split
          · simp
          · simp [allAttrs_mk, attrsL_cons, Cx.nextExpr, Cx.nextExprAttrs, attrs_call]
      · simp
    · simp
  · unfold visitTry
    split
    · split
      · split
        · simp
        · simp [allAttrs_mk, attrsL_cons, Cx.nextExpr, Cx.nextExprAttrs, tryArms, pathE, exprBlock,
            semiS, exprCall]
      · simp
    · simp
  · simp

theorem pre_attrs (vk : VK) (sc : Scope) (cx : Cx) (n : Node) :
    ∀ a ∈ allAttrs (pre vk sc cx n).2, a ∈ allAttrs n := by
  unfold pre
  split
  · exact fun a ha => visitMode_attrs _ _ _ a ((nestedStep_Z _ _ _).attrs a ha)
  · exact fun _ h => h

theorem visitMode_value (sc : Scope) (cx : Cx) (n : Node) :
    hasName (visitMode sc cx n).2 = hasName n ∧ Top n (visitMode sc cx n).2 := by
  have key : ∀ {k k' : Kind} {as : List Attr} {ks ks' : List Node}, KindTo k k' → k ≠ .eCall →
      hasName (.mk k' as ks') = hasName (.mk k as ks) ∧ Top (.mk k as ks) (.mk k' as ks') := by
    intro k k' as ks ks' hk hc
    refine ⟨rfl, ?_⟩
    cases hn : hasName (.mk k as ks)
    · exact .inr ⟨hn, hk, fun h => absurd h hc⟩
    · exact .inl hn
  unfold visitMode
  split
  · unfold visitReturn
    split
    · split
      · exact key (.inl rfl) (by simp)
      · exact ⟨rfl, .refl _⟩
    · exact ⟨rfl, .refl _⟩
  · unfold visitTry
    split
    · split
      · split
        · exact ⟨rfl, .refl _⟩
        · exact key (.inr (.inr ⟨rfl, rfl⟩)) (by simp)
      · exact ⟨rfl, .refl _⟩
    · exact ⟨rfl, .refl _⟩
  · exact ⟨rfl, .refl _⟩

theorem pre_top (vk : VK) (sc : Scope) (cx : Cx) (n : Node) : Top n (pre vk sc cx n).2 := by
  unfold pre
  split
  · exact (visitMode_value _ _ _).2.trans (nestedStep_Z _ _ _).top
  · exact .refl _

theorem hasName_of_drop {n n1 : Node} {a : Attr} (h : n.findRemoveAttr NAME = some (a, n1)) :
    hasName n = true := by
  obtain ⟨_, h1, _, l1, l2, h2, _⟩ := Node.findRemoveAttr_some h
  cases n with | mk k as ks =>
  simp only [Node.rawAttrs] at h2
  subst h2
  rw [hasName, any_named]
  have h1 : a.is "auto_enum" = true := h1
  simp [anyAttr, h1]

theorem pre_name (vk : VK) (sc : Scope) (cx : Cx) (n : Node) :
    hasName (pre vk sc cx n).2 = hasName n := by
  unfold pre
  split
  · exact (nestedStep_Z _ _ _).name.trans (visitMode_value _ _ _).1
  · rfl

theorem postSub_kind (vk : VK) (sc : Scope) (cx : Cx) (n : Node) :
    (postSub vk sc cx n).2.kind = n.kind := by
  unfold postSub
  split
  · exact findRemoveAttrs_kind _ _ _
  · rfl

theorem rebuild_kind (n : Node) (ks : List Node) : (n.rebuild ks).kind = n.kind := by
  cases n with | mk k as ks0 =>
  rw [Node.rebuild_mk]; split <;> rfl

theorem fates_kept {cx : Cx} {a b c : List Exit} (h : Aligned (fate cx) a b)
    (h' : Aligned Exit.Kept b c) : Aligned (fate cx) a c :=
  Aligned.comp (R := fate cx) (T := Exit.Kept) (U := fate cx)
    (fun _ _ _ h1 h2 => fate_kept h1 h2) h h'

theorem top_rebuild {n : Node} {ks : List Node} (h : Aligned Top n.sub ks) :
    Top n (n.rebuild ks) := by
  cases n with | mk k as ks0 =>
  rw [Node.rebuild_mk]
  rw [Node.sub_mk] at h
  cases ho : k.isOpaque
  · simp only [ho] at h; exact top_node h
  · exact .refl _

/-- The scope before the node's own kind is taken into account. -/
def ent (sc : Scope) (n : Node) : Scope := if n.anyAttr NAME then { sc with foreign := true } else sc

theorem ent_closure (sc : Scope) (n : Node) : (ent sc n).closure = sc.closure := by
  unfold ent; split <;> rfl

theorem ent_at {sc : Scope} {w : Where} (n : Node) (h : At sc w) : At (ent sc n) w := by
  unfold ent; split <;> exact h

theorem W.same {cl : Bool} {sc : Scope} {a b : Cx} {n n' : Node} (h : Same a b)
    (hw : W cl sc b n n') : W cl sc a n n' := ⟨fun w ha => by rw [← h.fate]; exact hw.exits w ha, hw.top⟩

theorem W.kept {cl : Bool} {sc : Scope} {cx : Cx} {a b c : Node} (h : W cl sc cx a b)
    (h' : Q cl b c) : W cl sc cx a c :=
  ⟨fun w hw => fates_kept (h.exits w hw) (h'.exits w), h.top.trans h'.top⟩

theorem Calmly.same {vk : VK} {sc : Scope} {a b : Cx} (h : Same a b) (hc : Calmly vk sc a) :
    Calmly vk sc b := hc.imp id (.imp h.mode.trans id)

theorem Fateful.same {vk : VK} {sc : Scope} {a b : Cx} (h : Same a b) (hc : Fateful vk sc a) :
    Fateful vk sc b := by
  obtain ⟨h1, h2, h3, h4⟩ := hc
  exact ⟨h1, h.root.trans h2, by rw [h.mode]; exact h3, h4⟩

theorem Calmly.enter {vk : VK} {sc : Scope} {cx : Cx} (n : Node) (hc : Calmly vk sc cx) :
    Calmly vk (enter vk sc n) cx := by
  rcases hc with h | h | h
  · exact .inl h
  · exact .inr (.inl h)
  · cases vk with
    | dummy => exact .inl rfl
    | visitor =>
      refine .inr (.inr ?_)
      show ((ent sc n).check n.kind).closure = true
      have := (ent_closure sc n).trans h
      generalize ent sc n = s at *
      cases n.kind <;> first | exact this | rfl

/-- The exits before and after a visit of an expression up to the visit of its kids. -/
theorem visit_fate {cl : Bool} {sc : Scope} {cx : Cx} {n nA : Node} {ks : List Node}
    (hf : Fateful .visitor sc cx)
    (hY : Y (pre .visitor (enter .visitor sc n) cx n).2 nA)
    (hQ : Calmly .visitor (enter .visitor sc n) cx → Aligned (Q cl) nA.sub ks)
    (hW : Fateful .visitor (enter .visitor sc n) cx →
      Aligned (W cl (enter .visitor sc n) cx) nA.sub ks) (w : Where) (hw : At sc w) :
    Aligned (fate cx) (exits cl w n) (exits cl w (nA.rebuild ks)) := by
  obtain ⟨_, h2, h3, h4⟩ := hf
  cases n with | mk k as ks0 =>
  rw [← (Same.seen cx (.mk k as ks0)).fate]
  refine fate_core (sc := ent sc (.mk k as ks0)) (cx := seen cx (.mk k as ks0))
    ((Same.seen _ _).root.trans h2) ((ent_closure _ _).trans h4) (ent_at _ hw) ?_ ?_ ?_
  · exact (nestedStep_Z _ _ _).toY.trans hY
  · exact fun h => hQ (.inr (.inr h))
  · intro h
    refine (hW ⟨rfl, h2, h3, h⟩).imp fun a b h => ⟨fun w hw => ?_, h.top⟩
    rw [(Same.seen cx (.mk k as ks0)).fate]; exact h.exits w hw

theorem cases_scope {sc : Scope} {cx : Cx} (h2 : cx.root = true) (h3 : cx.mode ≠ .default) :
    Calmly .visitor sc cx ∨ Fateful .visitor sc cx := by
  cases h : sc.closure
  · exact .inr ⟨rfl, h2, h3, h⟩
  · exact .inl (.inr (.inr h))

theorem built_exits (cl : Bool) (cx : Cx) (e : Node) (w : Where) :
    exits cl w (built cx e) = exits cl w e := by
  unfold built
  split
  · rfl
  · simp [AutoEnums.buildExpr, exits_block, exitsL, tailS, Cx.buildEnum, exits, skips, Where.enter]

/-- A `let` statement or an arm. -/
def Quiet : Kind → Prop
  | .sLocal _ | .arm _ => True
  | _ => False

theorem quiet_core {cl : Bool} {sc : Scope} {cx : Cx} {n nA : Node} {ks : List Node}
    (hk : Quiet n.kind) (hY : Y n nA) (hW : Aligned (W cl sc cx) nA.sub ks) (w : Where)
    (hw : At sc w) : Aligned (fate cx) (exits cl w n) (exits cl w (nA.rebuild ks)) := by
  rw [← hY.exits]
  cases nA with | mk k as ks0 =>
  have hk' : Quiet k := by rw [show k = n.kind from hY.kind]; exact hk
  have h : k.isOpaque = false ∧ k ≠ .eReturn ∧ k ≠ .eTry ∧ w.enter k = w := by
    cases k <;> first | exact hk'.elim | exact ⟨rfl, by simp, by simp, rfl⟩
  obtain ⟨h1, h2, h3, h4⟩ := h
  rw [Node.rebuild_mk, if_neg (by simp [h1])]
  rw [Node.sub_mk, if_neg (by simp [h1])] at hW
  refine exits_node (fun _ _ => hW.length.symm) (fun _ => ?_) (fun h => absurd h h2) (fun h => absurd h h3)
  rw [h4]
  exact aligned_exitsL (hW.imp fun _ _ h => h.exits _ hw)

/-- Type analysis cannot end the expansion early. -/
def Traited (env : Env) (cx : Cx) : Prop := env.typeAnalysis = false ∨ cx.args ≠ []

theorem Traited.noExit {env : Env} {cx : Cx} (h : Traited env cx) : cx.analysisExit env = false := by
  unfold Cx.analysisExit
  rcases h with h | h
  · simp [h]
  · cases ha : cx.args with
    | nil => exact absurd ha h
    | cons => split <;> simp

/-- What each judgement says about `return`s and `?`s. -/
def Judg.Flow (env : Env) (cl : Bool) : Judg → Prop
  | .one vk sc cx n _ n' => (cl = true → Free n) →
      (Calmly vk sc cx → Q cl n n') ∧ (Fateful vk sc cx → W cl sc cx n n')
  | .many vk sc cx ns _ ns' => (cl = true → ∀ n ∈ ns, Free n) →
      (Calmly vk sc cx → Aligned (Q cl) ns ns') ∧
        (Fateful vk sc cx → Aligned (W cl sc cx) ns ns')
  | .expr vk sc _ cx n _ n' => (cl = true → Free n) →
      (Calmly vk sc cx → Q cl n n') ∧ (Fateful vk sc cx → W cl sc cx n n')
  | .part vk sc cx n _ n' => Quiet n.kind → (cl = true → Free n) → Quiet n'.kind ∧
      (Calmly vk sc cx → Q cl n n') ∧ (Fateful vk sc cx → W cl sc cx n n')
  | .target cx n _ n' => (cl = true → Free n) →
      (cx.mode = .default → Q cl n n') ∧
        (cx.root = true → cx.mode ≠ .default → Traited env cx → W cl {} cx n n')
  | .onExpr _ cx n _ n' => cl = false → cx.mode = .default →
      ∀ w, Aligned Exit.Kept (exits cl w n) (exits cl w n')
  | .build cx n _ n' => cl = false → cx.mode = .default →
      ∀ w, Aligned Exit.Kept (exits cl w n) (exits cl w n')
  | .onStmt cx n _ n' => cl = false → cx.mode = .default → Quiet n.kind →
      ∀ w, Aligned Exit.Kept (exits cl w n) (exits cl w n')

theorem makeChild_default {cx cx1 ch : Cx} {h : Nat} {toks : List Tok}
    (hm : cx.makeChild h toks = (cx1, .ok ch)) : ch.mode = .default := by
  unfold Cx.makeChild at hm
  simp only [Prod.mk.injEq] at hm
  exact (new_fresh hm.2).mode

theorem makeChild_fate {cx cx1 ch : Cx} {h : Nat} {toks : List Tok}
    (hm : cx.makeChild h toks = (cx1, .ok ch)) :
    fate cx1 = fate cx ∧ cx1.root = cx.root ∧ cx1.mode = cx.mode := by
  unfold Cx.makeChild at hm
  simp only [Prod.mk.injEq] at hm
  obtain ⟨rfl, _⟩ := hm
  have := Same.assert cx cx.hasChild .makeChildNoChild
  exact ⟨by funext a b; exact congrFun (congrFun this.fate a) b, this.root, this.mode⟩

theorem Run.flow {env : Env} (cl : Bool) {j : Judg} (h : Run env j) : j.Flow env cl := by
  induction h with
  | nil => exact fun _ => ⟨fun _ => .nil, fun _ => .nil⟩
  | @cons vk sc cx n cx1 n' ns cx2 ns' h1 h2 ih1 ih2 =>
    intro hf
    have hs : Same cx cx1 := h1.keeps
    have g1 := ih1 fun hc => hf hc n (by simp)
    have g2 := ih2 fun hc m hm => hf hc m (by simp [hm])
    refine ⟨fun hc => .cons (g1.1 hc) (g2.1 (hc.same hs)), fun hc => .cons (g1.2 hc) ?_⟩
    exact (g2.2 (hc.same hs)).imp fun _ _ h => h.same hs
  | @plain cx vk sc n cx2 ks semi h1 h2 h3 h4 h5 h6 h7 ih =>
    intro hf
    have hs := pre_same vk (enter vk sc n) cx n
    have g := ih fun hc m hm => ((hf hc).mono (pre_attrs _ _ _ _)).sub m hm
    have hp := post_Q cl vk (enter vk sc n) cx2 _ h7
    refine ⟨fun hc => ?_, fun hc => ?_⟩
    · exact ((pre_calm_Z (hc.enter n)).Q cl).trans
        ((Q.rebuild (g.1 ((hc.enter n).same hs))).trans hp)
    · obtain ⟨rfl, hr, hm, hcl⟩ := hc
      refine W.kept (b := (pre .visitor (enter .visitor sc n) cx n).2.rebuild ks)
        ⟨fun w hw => ?_, ?_⟩ hp
      · refine visit_fate ⟨rfl, hr, hm, hcl⟩ (.refl _) (fun hc => g.1 (hc.same hs)) (fun hc => ?_) w hw
        exact (g.2 (hc.same hs)).imp fun _ _ h => h.same hs
      · refine (pre_top _ _ _ _).trans (top_rebuild ?_)
        rcases cases_scope (sc := enter .visitor sc n) hr hm with hc | hc
        · exact (g.1 (hc.same hs)).imp fun _ _ h => h.top
        · exact (g.2 (hc.same hs)).imp fun _ _ h => h.top
  | @child cx vk sc n attr n1 toks cx1 ch cx2 ks semi ch' n3 h1 h2 h3 h4 h5 h6 h7 h8 h9 h10 h11 h12
      h13 h14 _ ih1 ih2 =>
    intro hf
    have hn := (pre_name vk (enter vk sc n) cx n).symm.trans (hasName_of_drop h4)
    cases cl with
    | true => rw [(hf rfl).not_named] at hn; cases hn
    | false =>
    have hs := pre_same vk (enter vk sc n) cx n
    obtain ⟨c1, c2, c3⟩ := makeChild_fate h6
    have hp := post_Q false vk (enter vk sc n) (cx2.joinChild ch') n3 h14
    have hch := ih2 rfl (makeChild_default h6)
    have g := ih1 (fun h => by cases h)
    have hcalm : Calmly vk (enter vk sc n) cx → Aligned (Q false) n1.sub ks := by
      intro hc
      refine g.1 ?_
      refine hc.imp id (.imp (fun h => ?_) id)
      rw [c3, hs.mode]; exact h
    have hd := drop_Y (by decide) h4
    refine ⟨fun hc => ⟨fun w => ?_, .inl hn⟩, fun hc => ⟨fun w hw => ?_, .inl hn⟩⟩
    · have e1 := (pre_calm_Z (n := n) (hc.enter n)).exits false w
      rw [← e1, ← hd.exits]
      exact (((Q.rebuild (hcalm (hc.enter n))).exits w).comp (fun _ _ _ => .trans) (hch w)).comp
        (fun _ _ _ => .trans) (hp.exits w)
    · obtain ⟨rfl, hr, hm, hcl⟩ := hc
      refine fates_kept (fates_kept ?_ (hch w)) (hp.exits w)
      refine visit_fate ⟨rfl, hr, hm, hcl⟩ hd hcalm (fun hc => ?_) w hw
      obtain ⟨_, _, _, hc⟩ := hc
      refine (g.2 ⟨rfl, by rw [c2, hs.root]; exact hr, by rw [c3, hs.mode]; exact hm, hc⟩).imp
        fun _ _ h => ⟨fun w hw => ?_, h.top⟩
      rw [← hs.fate, ← c1]; exact h.exits w hw
  | @part cx vk sc n cx2 ks h1 h2 h3 h4 h5 ih =>
    intro hk hf
    have hs := preSub_same vk sc cx n
    have hz := preSub_Z vk sc cx n
    have g := ih fun hc m hm => ((hf hc).mono hz.attrs).sub m hm
    have hp := postSub_Q cl vk sc cx2 ((preSub vk sc cx n).2.rebuild ks)
    refine ⟨by rw [postSub_kind, rebuild_kind, hz.kind]; exact hk, fun hc => ?_, fun hc => ?_⟩
    · exact (hz.Q cl).trans ((Q.rebuild (g.1 (hc.same hs))).trans hp)
    · have gw := (g.2 (hc.same hs)).imp fun _ _ h => h.same hs
      refine W.kept ⟨fun w hw => quiet_core hk hz.toY gw w hw, ?_⟩ hp
      exact hz.top.trans (top_rebuild (gw.imp fun _ _ h => h.top))
  | oneExpr _ _ ih => exact ih
  | @oneStmt vk sc semi cx e cx' e' as h1 ih =>
    intro hf
    have g := ih fun hc => (hf hc).kids e (by simp)
    refine ⟨fun hc => .node (.cons (g.1 hc) .nil), fun hc => ?_⟩
    have gw := g.2 hc
    refine ⟨fun w hw => ?_, top_node (.cons gw.top .nil)⟩
    rw [exits_sExpr, exits_sExpr]
    exact gw.exits w hw
  | oneArm hk _ ih => exact fun hf => (ih (by rw [hk]; trivial) hf).2
  | oneLocal hk _ _ ih => exact fun hf => (ih (by rw [hk]; trivial) hf).2
  | @oneLocalChild cx attr n1 toks n cx1 ch vk sc cx2 n2 ch' n3 p h1 h2 h3 h4 h5 h6 h7 h8 h9 h10 h11
      h12 h13 _ ih1 ih2 =>
    intro hf
    have hn := hasName_of_drop h4
    cases cl with
    | true => rw [(hf rfl).not_named] at hn; cases hn
    | false =>
    have hs := Same.seen cx n
    obtain ⟨c1, c2, c3⟩ := makeChild_fate h6
    have hd := drop_Y (by decide) h4
    have hq : Quiet n1.kind := by rw [hd.kind, h1]; trivial
    obtain ⟨g0, g1, g2⟩ := ih1 hq (fun h => by cases h)
    have hch := ih2 rfl (makeChild_default h6) g0
    refine ⟨fun hc => ⟨fun w => ?_, .inl hn⟩, fun hc => ⟨fun w hw => ?_, .inl hn⟩⟩
    · rw [← hd.exits]
      refine ((g1 ?_).exits w).comp (fun _ _ _ => .trans) (hch w)
      rcases hc with h | h | h
      · exact .inl h
      · exact .inr (.inl (by rw [c3, hs.mode]; exact h))
      · cases vk with
        | dummy => exact .inl rfl
        | visitor => exact .inr (.inr ((ent_closure sc n).trans h))
    · rw [← hd.exits]
      obtain ⟨rfl, hr, hm, hcl⟩ := hc
      refine fates_kept ?_ (hch w)
      rw [← hs.fate, ← c1]
      exact (g2 ⟨rfl, by rw [c2, hs.root]; exact hr, by rw [c3, hs.mode]; exact hm,
        (ent_closure sc n).trans hcl⟩).exits w (ent_at n hw)
  | @oneBlock vk sc cx cx' ks n h1 h2 h3 h4 ih =>
    intro hf
    have g := ih fun hc m hm => (hf hc).sub m hm
    refine ⟨fun hc => .rebuild (g.1 hc), fun hc => ?_⟩
    have gw := g.2 hc
    refine ⟨fun w hw => ?_, top_rebuild (gw.imp fun _ _ h => h.top)⟩
    cases n with | mk k as ks0 =>
    simp only [Node.kind] at h1 h2 h3
    have h : k.isOpaque = false ∧ k ≠ .eReturn ∧ k ≠ .eTry ∧ w.enter k = w := by
      cases k <;> first | exact absurd h1 (by decide) | (cases h1; done) | (cases h2; done) |
        exact absurd rfl (h3 _) | exact ⟨rfl, by simp, by simp, rfl⟩
    obtain ⟨h1, h2, h3, h4⟩ := h
    rw [Node.rebuild_mk, if_neg (by simp [h1])]
    rw [Node.sub_mk, if_neg (by simp [h1])] at gw
    refine exits_node (fun _ _ => gw.length.symm) (fun _ => ?_) (fun h => absurd h h2) (fun h => absurd h h3)
    rw [h4]
    exact aligned_exitsL (gw.imp fun _ _ h => h.exits _ hw)
  | @oneInert n cx vk sc h1 h2 h3 h4 =>
    refine fun _ => ⟨fun _ => .refl _ _, fun _ => ⟨fun w hw => ?_, .refl _⟩⟩
    have : exits cl w n = [] := by
      cases n with | mk k as ks =>
      cases k with
      | sExpr b =>
        match ks, h3 with
        | [], _ => simp [exits, skips]
        | [e], h3 => exact (h3 _ _ _ rfl).elim
        | _ :: _ :: _, _ => simp [exits, skips]
      | sLocal p => exact absurd rfl (h2 _)
      | sItem i => simp [exits, skips]
      | sMacro p t => simp [exits, skips]
      | _ => cases h1
    rw [this]; exact .nil
  | @exprDummy semi cx e cx' e' h1 h2 ih =>
    intro hc hm w
    exact ((ih (fun h => by rw [hc] at h; cases h)).1 (.inl rfl)).exits w
  | @exprBuild semi cx e cx' e' h1 h2 ih =>
    intro hc hm w
    exact ih hc (by cases semi <;> exact hm) w
  | @target cx e cx' e' h1 h2 h3 ih =>
    intro hf
    have hz := childExpr_Z e cx
    have hs := childExpr_same e cx
    have g := ih fun hc => (hf hc).mono hz.attrs
    refine ⟨fun hm => (hz.Q cl).trans (g.1 (.inr (.inl (hs.mode.trans hm)))), fun hr hm _ => ?_⟩
    have gw := (g.2 ⟨rfl, hs.root.trans hr, by rw [hs.mode]; exact hm, rfl⟩).same hs
    exact ⟨fun w hw => by rw [← hz.exits]; exact gw.exits w hw, hz.top.trans gw.top⟩
  | @targetExit cx e cx' e' h1 h2 h3 ih =>
    intro hf
    have hz := childExpr_Z e cx
    have hs := childExpr_same e cx
    have g := ih fun hc => (hf hc).mono hz.attrs
    refine ⟨fun hm => (hz.Q cl).trans (g.1 (.inl rfl)), fun hr hm ht => ?_⟩
    have : Traited env (childExpr cx e).1 := ht.imp id (by rw [hs.args]; exact id)
    rw [this.noExit] at h1; cases h1
  | @buildExpr cx e cx' e' h1 h2 h3 ih =>
    intro hc hm w
    rw [built_exits]
    exact ((ih (fun h => by rw [hc] at h; cases h)).1 hm).exits w
  | @buildClosure cx b cx' b' i as h1 h2 h3 ih =>
    intro hc hm w
    subst hc
    rw [built_exits]
    simp [exits, skips, Aligned.nil]
  | @stmtExpr semi cx e cx' e' as h1 ih =>
    intro _ _ hk; exact hk.elim
  | @stmtLocalDummy cx p cx1 p1 ks cx' ks' as h1 h2 h3 ih =>
    intro hc hm hk w
    have := (ih (fun h => by rw [hc] at h; cases h)).1 (.inl rfl)
    simp only [exits, skips, Bool.false_eq_true, if_false, reduceCtorEq, Where.enter,
      List.nil_append, List.append_nil]
    exact aligned_exitsL (this.imp fun _ _ h => h.exits w)
  | @stmtLocal cx p cx1 p1 e cx' e' as els h1 h2 h3 ih =>
    intro hc hm hk w
    have hm1 : cx1.mode = .default := by
      have : (localAnalysis env cx p).1.mode = cx.mode := by
        unfold localAnalysis
        split
        · split <;> rfl
        · rfl
      rw [h1] at this; exact this.trans hm
    have := ih hc hm1 w
    simp only [exits, skips, Bool.false_eq_true, if_false, reduceCtorEq, Where.enter,
      List.nil_append, List.append_nil, exitsL]
    exact this.append (.refl .refl _)
  | stmtFnDummy => intro _ _ hk; exact hk.elim
  | stmtFnExit => intro _ _ hk; exact hk.elim
  | stmtFn => intro _ _ hk; exact hk.elim
  | stmtInert => intro _ _ _ w; exact .refl .refl _

end AutoEnums
