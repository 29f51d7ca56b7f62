import Verif.Spec.Treat
import Verif.Lemmas.FlowApi

/-! # The state between the passes

`pend J H r o` is what the passes started by the ancestors of `o` have made of `o` before it is
visited itself: branches and `break` values are wrapped, nothing else has happened.  `H` tells which
`break`s are wrapped.  The predicates the code evaluates on such a tree are those of the
specification on the original tree. -/

namespace AutoEnums

open Spec

/-! ## Up to variants -/

theorem blurK_rigid {en : Ident} {k k' : Kind} (h : blurK en k' = blurK en k)
    (hk : ∀ p, k ≠ .ePath false p) : k' = k := by
  have h1 : ∀ k : Kind, (∀ p, k ≠ .ePath false p) → blurK en k = k := by
    intro k hk
    unfold blurK
    split
    · exact absurd rfl (hk _)
    · rfl
  rw [h1 k hk] at h
  by_cases hp : ∀ p, k' ≠ .ePath false p
  · rw [h1 k' hp] at h; exact h
  · simp only [ne_eq, Classical.not_forall, Classical.not_not] at hp
    obtain ⟨p, rfl⟩ := hp
    exfalso
    unfold blurK at h
    split at h
    · split at h
      · exact hk _ h.symm
      · exact hk _ h.symm
    · exact hk _ h.symm

theorem blurK_path {en : Ident} {p : Path} {k' : Kind} (h : blurK en k' = blurK en (.ePath false p)) :
    ∃ p', k' = .ePath false p' ∧ (p' = p ∨ p'.segs.length = 2 ∧ p.segs.length = 2) := by
  have h1 : ∀ p, ∃ q, blurK en (.ePath false p) = .ePath false q ∧
      (q = p ∨ q = variantPath en "" ∧ p.segs.length = 2) := by
    intro p
    unfold blurK
    split
    · rename_i e v heq
      cases heq
      split
      · exact ⟨_, rfl, .inr ⟨rfl, rfl⟩⟩
      · exact ⟨_, rfl, .inl rfl⟩
    · exact ⟨_, rfl, .inl rfl⟩
  obtain ⟨q, hq, hq'⟩ := h1 p
  by_cases hp : ∃ p', k' = .ePath false p'
  · obtain ⟨p', rfl⟩ := hp
    obtain ⟨q2, hq2, hq2'⟩ := h1 p'
    rw [hq, hq2] at h
    cases h
    refine ⟨p', rfl, ?_⟩
    rcases hq' with rfl | ⟨rfl, h1⟩ <;> rcases hq2' with h2 | ⟨h2, h3⟩
    · exact .inl h2.symm
    · subst h2; exact .inr ⟨h3, rfl⟩
    · subst h2; exact .inr ⟨rfl, h1⟩
    · exact .inr ⟨h3, h1⟩
  · exfalso
    have : k' = blurK en k' := by
      unfold blurK
      split
      · exact absurd ⟨_, rfl⟩ hp
      · rfl
    rw [← this, hq] at h
    exact hp ⟨_, h⟩

/-- Lists equal up to variants. -/
def AlikeL (en : Ident) (a b : List Node) : Prop := blurL en a = blurL en b

theorem Spec.Alike.refl {en : Ident} (a : Node) : Alike en a a := rfl
theorem Spec.Alike.symm {en : Ident} {a b : Node} (h : Alike en a b) : Alike en b a := Eq.symm h
theorem Spec.Alike.trans {en : Ident} {a b c : Node} (h : Alike en a b) (h' : Alike en b c) :
    Alike en a c := Eq.trans h h'
theorem AlikeL.refl {en : Ident} (a : List Node) : AlikeL en a a := rfl
theorem AlikeL.symm {en : Ident} {a b : List Node} (h : AlikeL en a b) : AlikeL en b a := Eq.symm h
theorem AlikeL.trans {en : Ident} {a b c : List Node} (h : AlikeL en a b) (h' : AlikeL en b c) :
    AlikeL en a c := Eq.trans h h'

theorem alikeL_cons {en : Ident} {a b : Node} {l l' : List Node} :
    AlikeL en (a :: l) (b :: l') ↔ Alike en a b ∧ AlikeL en l l' := by
  simp [AlikeL, Alike, blurL]

theorem AlikeL.cons {en : Ident} {a b : Node} {l l' : List Node} (h : Alike en a b)
    (h' : AlikeL en l l') : AlikeL en (a :: l) (b :: l') := alikeL_cons.mpr ⟨h, h'⟩

theorem alikeL_nil {en : Ident} {l : List Node} (h : AlikeL en l []) : l = [] := by
  cases l with
  | nil => rfl
  | cons => simp [AlikeL, blurL] at h

theorem alikeL_inv {en : Ident} {b : Node} {l l' : List Node} (h : AlikeL en l (b :: l')) :
    ∃ a m, l = a :: m ∧ Alike en a b ∧ AlikeL en m l' := by
  cases l with
  | nil => simp [AlikeL, blurL] at h
  | cons a m => exact ⟨a, m, rfl, alikeL_cons.mp h⟩

theorem AlikeL.append {en : Ident} {a b : List Node} (h : AlikeL en a b) {c d : List Node}
    (h' : AlikeL en c d) : AlikeL en (a ++ c) (b ++ d) := by
  induction b generalizing a with
  | nil => rw [alikeL_nil h]; exact h'
  | cons x l ih =>
    obtain ⟨y, m, rfl, h1, h2⟩ := alikeL_inv h
    exact .cons h1 (ih h2)

theorem AlikeL.length {en : Ident} {a b : List Node} (h : AlikeL en a b) : a.length = b.length := by
  induction b generalizing a with
  | nil => rw [alikeL_nil h]
  | cons x l ih =>
    obtain ⟨y, m, rfl, _, h2⟩ := alikeL_inv h
    simp [ih h2]

theorem Spec.Alike.mk {en : Ident} {k k' : Kind} {as : List Attr} {l l' : List Node}
    (hk : blurK en k = blurK en k') (h : AlikeL en l l') : Alike en (.mk k as l) (.mk k' as l') := by
  unfold Alike blur
  rw [hk, h]

theorem Spec.Alike.node {en : Ident} (k : Kind) (as : List Attr) {l l' : List Node}
    (h : AlikeL en l l') : Alike en (.mk k as l) (.mk k as l') := .mk rfl h

theorem Spec.Alike.inv {en : Ident} {t : Node} {k : Kind} {as : List Attr} {ks : List Node}
    (h : Alike en t (.mk k as ks)) :
    ∃ k' ks', t = .mk k' as ks' ∧ blurK en k' = blurK en k ∧ AlikeL en ks' ks := by
  cases t with
  | mk k' as' ks' =>
    simp only [Alike, blur, Node.mk.injEq] at h
    obtain ⟨h1, h2, h3⟩ := h
    subst h2
    exact ⟨k', ks', rfl, h1, h3⟩

/-- The same when the kind is no path. -/
theorem Spec.Alike.rigid {en : Ident} {t : Node} {k : Kind} {as : List Attr} {ks : List Node}
    (h : Alike en t (.mk k as ks)) (hk : ∀ p, k ≠ .ePath false p) :
    ∃ ks', t = .mk k as ks' ∧ AlikeL en ks' ks := by
  obtain ⟨k', ks', rfl, h1, h2⟩ := h.inv
  rw [blurK_rigid h1 hk]
  exact ⟨ks', rfl, h2⟩

theorem ctor_alike {en : Ident} {J : Job} (hJ : J.en = en) {as : List Attr} {vn : Ident}
    {a b : Node} (h : Alike en a b) : Alike en (construct as en vn a) (ctor J as b) := by
  unfold construct ctor construct
  refine .node _ _ (.cons ?_ (.cons h rfl))
  refine .mk ?_ rfl
  simp [blurK, variantPath, hJ]

/-! ## Wrapping -/

theorem wrapHead_alike (J : Job) {l l' : List Node} (h : AlikeL J.en l l') :
    AlikeL J.en (wrapHead J l) (wrapHead J l') := by
  cases l' with
  | nil => rw [alikeL_nil h]; rfl
  | cons a m =>
    obtain ⟨b, n, rfl, h1, h2⟩ := alikeL_inv h
    exact .cons (ctor_alike rfl h1) h2

theorem wrapLast_alike (J : Job) {l l' : List Node} (h : AlikeL J.en l l') :
    AlikeL J.en (wrapLast J l) (wrapLast J l') := by
  induction l' generalizing l with
  | nil => rw [alikeL_nil h]; rfl
  | cons a m ih =>
    obtain ⟨b, n, rfl, h1, h2⟩ := alikeL_inv h
    cases m with
    | nil => rw [alikeL_nil h2]; exact .cons (ctor_alike rfl h1) rfl
    | cons c m =>
      obtain ⟨d, n, rfl, h3, h4⟩ := alikeL_inv h2
      exact .cons h1 (ih (.cons h3 h4))

theorem wrapAll_alike (J : Job) {l l' : List Node} (h : AlikeL J.en l l') :
    AlikeL J.en (wrapAll J l) (wrapAll J l') :=
  .cons (.node _ _ (.cons (ctor_alike rfl (.node _ _ h)) rfl)) rfl

/-! ## Pending passes -/

def roleP (J : Job) (r : Role) (k : Kind) (as : List Attr) (ks : List Node) : Role :=
  if r = .plain then .plain else role J r k as ks

def kidRoleP (r : Role) (k : Kind) (n i : Nat) : Role :=
  match k with
  | .arm _ | .sLocal _ => .plain
  | k => kidRole r k [] n i

/-- Which `break`s are wrapped. -/
abbrev Hit := Option String → Bool

def noHit : Hit := fun _ => false

def push (l : Option String) (isLoop ours : Bool) (H : Hit) : Hit
  | none => if isLoop then ours else H none
  | some x => if l = some x then ours else H (some x)

def thr (H : Hit) (k : Kind) (as : List Attr) : Hit :=
  if isExpression k && marked "never" as then noHit else H

def kidH (H : Hit) (r : Role) (k : Kind) (as : List Attr) (i : Nat) : Hit :=
  match k with
  | .eClosure _ | .eAsync => noHit
  | .eLoop l => push l true (r = .result) (thr H k as)
  | .eWhile l => push l true false (thr H k as)
  | .eForLoop l _ => if i = 0 then thr H k as else push l true false (thr H k as)
  | .eBlock (some l) => push (some l) false false (thr H k as)
  | _ => thr H k as

def kidsP (J : Job) (H : Hit) (r : Role) (k : Kind) (as : List Attr) (ks ks' : List Node) :
    List Node :=
  match k with
  | .eBreak l => if thr H k as l && !isCallOf J.marker ks then wrapHead J ks' else ks'
  | .arm _ => if r = .branch then wrapLast J ks' else ks'
  | .block | .eBlock _ => if r = .branch then wrapAll J ks' else ks'
  | _ => ks'

mutual
def pend (J : Job) (H : Hit) (r : Role) : Node → Node
  | .mk k as ks =>
    .mk k as (kidsP J H (roleP J r k as ks) k as ks
      (if hidesCode k then ks
       else pendL J (fun i => kidH H (roleP J r k as ks) k as i)
        (fun i => kidRoleP (roleP J r k as ks) k ks.length i) ks))
def pendL (J : Job) (Hs : Nat → Hit) (rs : Nat → Role) : List Node → List Node
  | [] => []
  | n :: ns => pend J (Hs 0) (rs 0) n :: pendL J (fun i => Hs (i + 1)) (fun i => rs (i + 1)) ns
end

theorem pendL_length (J : Job) : ∀ (l : List Node) (Hs : Nat → Hit) (rs : Nat → Role),
    (pendL J Hs rs l).length = l.length := by
  intro l
  induction l with
  | nil => intros; rfl
  | cons a l ih => intro Hs rs; simp [pendL, ih]

theorem roleP_plain (J : Job) (k : Kind) (as : List Attr) (ks : List Node) :
    roleP J .plain k as ks = .plain := rfl

theorem kidRoleP_plain (k : Kind) (n i : Nat) : kidRoleP .plain k n i = .plain := by
  unfold kidRoleP
  split
  · rfl
  · rfl
  · unfold kidRole
    split <;> simp_all

/-- The kids of a pending node in plain role. -/
theorem pend_plain (J : Job) (H : Hit) (k : Kind) (as : List Attr) (ks : List Node) :
    pend J H .plain (.mk k as ks) = .mk k as (kidsP J H .plain k as ks
      (if hidesCode k then ks else pendL J (fun i => kidH H .plain k as i) (fun _ => .plain) ks)) := by
  rw [pend, roleP_plain]
  simp only [kidRoleP_plain]

theorem kidsP_plain (J : Job) (H : Hit) (k : Kind) (as : List Attr) (ks ks' : List Node)
    (hk : ∀ l, k ≠ .eBreak l) : kidsP J H .plain k as ks ks' = ks' := by
  unfold kidsP
  split
  · exact absurd rfl (hk _)
  · rfl
  · rfl
  · rfl
  · rfl

/-- Nothing is pending. -/
theorem pend_id (J : Job) : ∀ n, pend J noHit .plain n = n := by
  intro n
  induction n using Node.ind with
  | h k as ks ih =>
    have hl : ∀ (l : List Node) (Hs : Nat → Hit), (∀ i, Hs i = noHit) → (∀ c ∈ l, c ∈ ks) →
        pendL J Hs (fun _ => .plain) l = l := by
      intro l
      induction l with
      | nil => intros; rfl
      | cons a l ihl =>
        intro Hs hH hm
        rw [pendL, hH 0, ih a (hm a (by simp)), ihl _ (fun i => hH (i + 1)) fun c hc => hm c (by simp [hc])]
    have ht : thr noHit k as = noHit := by unfold thr; split <;> rfl
    have hH : ∀ i, kidH noHit .plain k as i = noHit := by
      intro i
      have hp : ∀ l b, push l b false noHit = noHit := by
        intro l b; funext x; cases x <;> simp [push, noHit]
      unfold kidH
      split <;> simp [ht, hp]
    rw [pend_plain]
    have e : (if hidesCode k = true then ks else pendL J (fun i => kidH noHit .plain k as i)
        (fun _ => .plain) ks) = ks := by
      split
      · rfl
      · exact hl ks _ hH fun _ h => h
    rw [e]
    congr 1
    unfold kidsP
    split
    · rw [ht]; rfl
    · rfl
    · rfl
    · rfl
    · rfl

/-! ## The predicates -/

/-- `t` is `o` with some `break` values wrapped, up to variants. -/
def Raw (J : Job) (o t : Node) : Prop := ∃ H, Alike J.en t (pend J H .plain o)

theorem raw_list {J : Job} : ∀ {l tl : List Node} {Hs : Nat → Hit},
    AlikeL J.en tl (pendL J Hs (fun _ => .plain) l) → Aligned (Raw J) l tl := by
  intro l
  induction l with
  | nil => intro tl Hs h; rw [alikeL_nil h]; exact .nil
  | cons a l ih =>
    intro tl Hs h
    obtain ⟨b, m, rfl, h1, h2⟩ := alikeL_inv h
    exact .cons ⟨_, h1⟩ (ih h2)

/-- Visible kids are raw kids, except for the value of a `break`. -/
theorem Raw.inv {J : Job} {k : Kind} {as : List Attr} {ks : List Node} {t : Node}
    (h : Raw J (.mk k as ks) t) (hk : ∀ l, k ≠ .eBreak l) (ho : k.isOpaque = false) :
    ∃ k' tks, t = .mk k' as tks ∧ blurK J.en k' = blurK J.en k ∧ Aligned (Raw J) ks tks := by
  obtain ⟨H, h⟩ := h
  rw [pend_plain, kidsP_plain J H k as ks _ hk, hidesCode_eq, ho] at h
  obtain ⟨k', tks, rfl, h1, h2⟩ := h.inv
  exact ⟨k', tks, rfl, h1, raw_list h2⟩

theorem Raw.top {J : Job} {k : Kind} {as : List Attr} {ks : List Node} {t : Node}
    (h : Raw J (.mk k as ks) t) : ∃ k' tks, t = .mk k' as tks ∧ blurK J.en k' = blurK J.en k := by
  obtain ⟨H, h⟩ := h
  rw [pend_plain] at h
  obtain ⟨k', tks, rfl, h1, h2⟩ := h.inv
  exact ⟨k', tks, rfl, h1⟩

theorem Raw.inv' {J : Job} {k : Kind} {as : List Attr} {ks : List Node} {t : Node}
    (h : Raw J (.mk k as ks) t) (hk : ∀ l, k ≠ .eBreak l) (ho : k.isOpaque = false)
    (hp : ∀ p, k ≠ .ePath false p) :
    ∃ tks, t = .mk k as tks ∧ Aligned (Raw J) ks tks := by
  obtain ⟨k', tks, rfl, h1, h2⟩ := h.inv hk ho
  rw [blurK_rigid h1 hp]
  exact ⟨tks, rfl, h2⟩

/-- The path comparison of the code (C30). -/
theorem pathEq_iff (p : Path) (c l : List String) (x : String) :
    pathEq p c (l ++ [x]) = true ↔
      p.segs.map (·.ident) = [x] ∨ ∃ s ∈ c, p.segs.map (·.ident) = s :: (l ++ [x]) := by
  unfold pathEq
  dsimp only
  generalize p.segs.map (·.ident) = ids
  cases ids with
  | nil => simp
  | cons a r =>
    cases r with
    | nil =>
      simp only [List.length_cons, List.length_nil, List.head?_cons, List.getLast?_append,
        List.getLast?_singleton, Option.some_or, Option.some.injEq]
      simp
    | cons b r =>
      have : ¬((a :: b :: r).length = 1 ∧ (a :: b :: r).head? = (l ++ [x]).getLast?) := by simp
      rw [if_neg this]
      split
      · simp
        constructor
        · rintro ⟨h1, h2⟩; exact ⟨a, h1, rfl, h2⟩
        · rintro ⟨s, h1, rfl, h2⟩; exact ⟨h1, h2⟩
      · rename_i hn
        simp
        intro s _ hs h2
        apply hn
        simp [h2]
        
theorem pathEq_std (p : Path) (l : List String) (x : String) :
    pathEq p ["std", "core"] (l ++ [x]) = isOneOf [[x], "std" :: (l ++ [x]), "core" :: (l ++ [x])] p := by
  rw [Bool.eq_iff_iff, pathEq_iff]
  simp [isOneOf]

theorem isUnreachableMacro_eq (cx : Cx) (hr : cx.root = true) (p : Path) :
    isUnreachableMacro cx p = divergingMacro cx.marker p := by
  have h1 := pathEq_std p [] "panic"
  have h2 := pathEq_std p [] "unreachable"
  simp only [List.nil_append] at h1 h2
  have h3 : cx.isMarker p = (p == ⟨false, [⟨cx.marker, none⟩]⟩) := by
    have := named_iff cx.marker ⟨p, .path⟩
    simp only [named, Attr.is] at this
    simp only [Cx.isMarker, hr, Bool.or_true, if_true, Cx.isMarkerExact, this]
  simp only [isUnreachableMacro, divergingMacro, h3, List.any_cons, List.any_nil, h1, h2, isOneOf,
    Bool.or_false]
  rw [Bool.eq_iff_iff]
  simp
  grind

end AutoEnums
