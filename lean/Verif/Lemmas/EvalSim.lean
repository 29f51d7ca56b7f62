import Verif.Lemmas.Eval

/-! # Lemmas: the treatment of code keeps its meaning -/

namespace AutoEnums

open Spec

section

variable {B S : Type} {M : Machine B S} {vs : List Ident}

open Eval

theorem SimL.imp {R R' : Nat → Outcome B → Outcome B → Prop} {ds ds' : List (Den B S)} (h : SimL R ds ds')
    (hR : ∀ i o o', i < ds.length → R i o o' → R' i o o') : SimL R' ds ds' := by
  induction h generalizing R' with
  | nil => exact .nil
  | cons h _ ih =>
    refine .cons (fun x s => Agree.imp (h x s) fun o o' _ _ => hR 0 o o' (by simp)) (ih fun i o o' hi => ?_)
    exact hR (i + 1) o o' (by simp; omega)

theorem agree_loop {o ret : Bool} {ts : List Target} {l : Option String} {d d' : S → Res B S} {b : Bool}
    (h : ∀ s, Agree (Wraps vs b (⟨l, true, o⟩ :: ts) ret) (d s) (d' s)) (f : Nat) :
    ∀ s, Agree (Wraps vs o ts ret) (loop l d f s) (loop l d' f s) := by
  induction f with
  | zero => intro s; trivial
  | succ f ih =>
    intro s
    unfold loop
    exact agree_round (h s) ih fun v v' s hv => agree_val hv

theorem agree_for {ret : Bool} {ts : List Target} {k : Kind} {l : Option String} {d d' : S → Res B S}
    {b o : Bool} {v : Value B}
    (h : ∀ s, Agree (Wraps vs b (⟨l, true, o⟩ :: ts) ret) (d s) (d' s)) (f : Nat) :
    ∀ s, Agree (Wraps vs false ts ret) (for_ M k l v d f s) (for_ M k l v d' f s) := by
  induction f with
  | zero => intro s; trivial
  | succ f ih =>
    intro s
    unfold for_
    cases M.step k [v] s with
    | done v s => exact agree_val (wrappedIf_false.mpr rfl)
    | panic s => exact agree_panic
    | kid i s => exact agree_round (h s) ih fun v v' s hv => agree_val (wrappedIf_false.mpr rfl)

theorem agree_while {ret : Bool} {ts : List Target} {l : Option String} {c c' d d' : S → Res B S}
    {b o : Bool}
    (hc : ∀ s, Agree (Wraps vs false (⟨l, true, o⟩ :: ts) ret) (c s) (c' s))
    (h : ∀ s, Agree (Wraps vs b (⟨l, true, o⟩ :: ts) ret) (d s) (d' s)) (f : Nat) :
    ∀ s, Agree (Wraps vs false ts ret) (while_ M l c d f s) (while_ M l c' d' f s) := by
  induction f with
  | zero => intro s; trivial
  | succ f ih =>
    intro s
    have hl : ∀ (v v' : Value B) (s : S), wrappedIf vs o v v' →
        Agree (Wraps vs false ts ret) (some (.val (unit M), s)) (some (.val (unit M), s)) :=
      fun v v' s _ => agree_val (wrappedIf_false.mpr rfl)
    unfold while_
    dsimp only
    have h1 := hc s
    revert h1
    generalize c s = r
    generalize c' s = r'
    intro h1
    rcases r with _ | ⟨x, s⟩ <;> rcases r' with _ | ⟨x', s'⟩ <;> try (cases h1; done)
    · trivial
    · have h2 := h1
      obtain ⟨rfl, h1⟩ := h1
      cases x <;> cases x' <;> try (first | exact h1.elim | exact agree_round h2 ih hl)
      rename_i v v'
      rw [show v' = v from wrappedIf_false.mp h1]
      dsimp only
      split
      · exact agree_round (h _) ih hl
      · exact agree_val (wrappedIf_false.mpr rfl)

theorem labelled_none (r : Res B S) : labelled none r = r := by
  unfold labelled
  split
  · simp
  · rfl

theorem agree_labelled {ret : Bool} {ts : List Target} {l : String} {r r' : Res B S}
    (h : Agree (Wraps vs false (⟨some l, false, false⟩ :: ts) ret) r r') :
    Agree (Wraps vs false ts ret) (labelled (some l) r) (labelled (some l) r') := by
  rcases r with _ | ⟨x, s⟩ <;> rcases r' with _ | ⟨x', s'⟩ <;> try (cases h; done)
  · trivial
  · obtain ⟨rfl, h⟩ := h
    cases x <;> cases x' <;> try (first | exact ⟨rfl, h⟩ | exact h.elim)
    rename_i lb v lb' v'
    obtain ⟨rfl, h⟩ := h
    cases lb' with
    | none => exact ⟨rfl, rfl, by simpa [hits] using h⟩
    | some z =>
      simp only [labelled]
      by_cases hz : (some l : Option String) = some z
      · rw [if_pos hz, if_pos hz]
        simp only [hits, if_pos hz] at h
        exact agree_val h
      · rw [if_neg hz, if_neg hz]
        simp only [hits, if_neg hz] at h
        exact ⟨rfl, rfl, h⟩

theorem eval_construct {en : Ident} {f : Nat} {as : List Attr} {v : Ident} {y : Node} (x : Value B) (s : S) :
    eval M en f (construct as en v y) x s =
      andThen (eval M en f y (unit M) s) fun u s => some (.val (.inj v u), s) := by
  simp [construct, eval, evalL, node, constructor, callee, Node.kind, variantPath, kid]

theorem agree_freeze {ret : Bool} {ts : List Target} {k : Kind} {ks ks' : List Node} {s : S}
    (h : noAttrsL ks' = noAttrsL ks) : Agree (Wraps vs false ts ret) (freeze M k ks s) (freeze M k ks' s) := by
  unfold freeze
  rw [h]
  split
  · exact agree_val (wrappedIf_false.mpr rfl)
  · exact agree_panic

/-- Nodes that are evaluated by the machine. -/
def isOther : Kind → Bool
  | .block | .eUnsafe | .eConst | .eBlock _ | .sExpr _ | .sLocal _ | .sItem _ | .eParen | .eGroup | .eMatch
  | .arm _ | .eIf | .eLoop _ | .eWhile _ | .eForLoop _ _ | .eBreak _ | .eContinue _ | .eReturn | .eTry
  | .eTryBlock | .eMacro _ _ | .sMacro _ _ | .eClosure _ | .eAsync | .eVerbatim _ | .eTuple | .ePath _ _
  | .eCall | .eMethodCall _ => false
  | _ => true

theorem node_other {en : Ident} {f : Nat} {k : Kind} {ks : List Node} {ds : List (Den B S)}
    (h : isOther k = true) (x : Value B) (s : S) : node M en f k ks ds x s = other M k ds f [] s := by
  cases k <;> first | rfl | cases h

theorem role_other {r : Role} {k : Kind} {ks : List Node} (h : isOther k = true)
    (hw : wrappable r k ks = true) : r = .plain := by
  cases k <;> cases r <;> first | rfl | (cases h; done) | (cases hw; done)

theorem kids_other {ts : List Target} {k : Kind} {as : List Attr} {n : Nat} (h : isOther k = true) :
    (∀ i, kidRole .plain k as n i = .plain) ∧ ∀ r i, kidTargets ts r k as i = through ts k as := by
  cases k <;> first | exact ⟨fun i => rfl, fun r i => rfl⟩ | (cases h; done)

/-- A node whose new value is wrapped. -/
theorem agree_construct {ret : Bool} {ts : List Target} {en : Ident} {f : Nat} {as : List Attr} {v : Ident}
    {y : Node} {r : Res B S} {x : Value B} {s : S} (hv : v ∈ vs)
    (h : Agree (Wraps vs false ts ret) r (eval M en f y (unit M) s)) :
    Agree (Wraps vs true ts ret) r (eval M en f (construct as en v y) x s) := by
  rw [eval_construct]
  have : r = andThen r fun u s => some (.val u, s) := by
    unfold andThen
    split <;> rfl
  rw [this]
  refine agree_andThen h fun u u' s hu => agree_val ?_
  rw [wrappedIf_false.mp hu]
  exact ⟨v, hv, rfl⟩

theorem evalL_length (M : Machine B S) (en : Ident) (f : Nat) : ∀ l, (evalL M en f l).length = l.length
  | [] => rfl
  | n :: l => by simp [evalL, evalL_length M en f l]

/-- The kind of a node that is no constructor is not blurred. -/
theorem kind_of_blur {en : Ident} {k k' : Kind} {as : List Attr} (h0 : isCtor en (k, as) = 0)
    (h : blurK en k' = blurK en k) : k' = k := by
  by_cases hp : ∀ p, k ≠ .ePath false p
  · exact blurK_rigid h hp
  · simp only [ne_eq, Classical.not_forall, Classical.not_not] at hp
    obtain ⟨p, rfl⟩ := hp
    have h1 : blurK en (.ePath false p) = .ePath false p := by
      unfold blurK
      split
      · rename_i e v heq
        cases heq
        simp only [isCtor] at h0
        split at h0
        · cases h0
        · rw [if_neg (by assumption)]
      · rfl
    rw [h1] at h
    obtain ⟨p', rfl, _⟩ := blurK_path (h.trans h1.symm)
    unfold blurK at h
    split at h
    · rename_i e v heq
      cases heq
      split at h
      · cases h
        simp [isCtor, variantPath] at h0
      · exact h
    · exact h

theorem Covered.marker {J : Job} {ts : List Target} {r : Role} {k : Kind} {as : List Attr}
    {ks : List Node} (h : Covered M J ts r (.mk k as ks)) :
    ∀ p t, k = .eMacro p t → p ≠ ⟨false, [⟨J.marker, none⟩]⟩ := by
  rw [Covered] at h
  exact h.2.2.2.2.1

theorem isCallOf_covered {J : Job} {ts : Nat → List Target} {rs : Nat → Role} {ks : List Node}
    (h : CoveredL M J ts rs ks) : isCallOf J.marker ks = false := by
  cases ks with
  | nil => rfl
  | cons n ns =>
    obtain ⟨k, as, kk⟩ := n
    rw [CoveredL] at h
    unfold isCallOf
    split
    · rename_i p t as' ks' ns' heq
      cases heq
      have := Covered.marker h.1 p t rfl
      simpa using this
    · rfl

theorem hits_erased (ts : List Target) (l : Option String) :
    hits (ts.map ({ · with ours := false })) l = false := by
  apply hits_noneOurs
  intro t ht
  rw [List.mem_map] at ht
  obtain ⟨u, _, rfl⟩ := ht
  rfl

/-- The constructors of `en` in the node are among `vs`. -/
def ctorsIn (vs : List Ident) (en : Ident) (n : Node) : Prop :=
  ∀ l ∈ labels n, ∀ x, l.1 = .ePath false (variantPath en x) → x ∈ vs

theorem ctorsIn.kids {en : Ident} {k : Kind} {as : List Attr} {ks : List Node}
    (h : ctorsIn vs en (.mk k as ks)) : ∀ n ∈ ks, ctorsIn vs en n := by
  intro n hn l hl
  exact h l (by rw [labels]; exact List.mem_cons_of_mem _ (mem_labelsL.mpr ⟨n, hn, hl⟩))

theorem ctorsIn_head {en : Ident} {a b : Node} {l : List Node} (h : ∀ n ∈ a :: l, ctorsIn vs en n)
    (hb : ctorsIn vs en b) : ∀ n ∈ b :: l, ctorsIn vs en n := by
  intro n hn
  rcases List.mem_cons.mp hn with rfl | hn
  · exact hb
  · exact h n (by simp [hn])

theorem ctorsIn.construct {en : Ident} {as : List Attr} {v : Ident} {y : Node}
    (h : ctorsIn vs en (construct as en v y)) : v ∈ vs ∧ ctorsIn vs en y := by
  have h' := ctorsIn.kids h
  exact ⟨h' _ List.mem_cons_self (.ePath false (variantPath en v), []) (by simp) v rfl, h' y (by simp)⟩

end

end AutoEnums
