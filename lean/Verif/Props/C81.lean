import Verif.Spec.Relabel
import Verif.Props.C80

/-! # C81: the names of the enum and of its variants do not matter -/

namespace AutoEnums

open Derive Spec

namespace Variants

variable {α μ : Type} {f : String → String} {W W' : World α μ}

theorem emit_relabel (fs : Features) (name : String) (f : String → String) (d : Data) :
    ∀ l, emit fs (relabel name f d) l = emit fs d l
  | [] => rfl
  | (s, arg) :: rest => by
    have hd : ∀ i, derivable (relabel name f d) i = derivable d i := by
      intro i
      have hg : genericsTokens (relabel name f d) = genericsTokens d := rfl
      simp only [derivable, checkFields, hg]
      simp only [relabel, List.map_map, Function.comp_def]
      rfl
    simp only [emit, hd, emit_relabel fs name f d rest]

theorem evalAtom_same (hW : SameWorld f W W') (env : List (String × Val α)) (x : Atom) :
    evalAtom W' env x = evalAtom W env x := by
  cases x <;> simp [evalAtom, hW.tmp]

/-- The arm of a renamed variant is the renamed arm. -/
theorem find_relabel (hf : ∀ a b, f a = f b → a = b) (vs : List (String × List String))
    (g g' : String × List String → Rhs) (v : String) :
    ((vs.map fun v => (f v.1, v.2)).map fun v => Arm.mk v.1 (g' v)).find? (fun a => a.variant == f v) =
      ((vs.map fun v => (v, Arm.mk v.1 (g v))).find? fun a => a.2.variant == v).map fun a =>
        ⟨f a.1.1, g' (f a.1.1, a.1.2)⟩ := by
  induction vs with
  | nil => rfl
  | cons w vs ih =>
    simp only [List.map_cons, List.find?_cons]
    by_cases h : w.1 = v
    · simp [h]
    · have : ¬ f w.1 = f v := fun e => h (hf _ _ e)
      rw [show (f w.1 == f v) = false by simpa using this, show (w.1 == v) = false by simpa using h]
      exact ih

theorem find_pair (vs : List (String × List String)) (g : String × List String → Rhs) (v : String) :
    (vs.map fun v => Arm.mk v.1 (g v)).find? (fun a => a.variant == v) =
      ((vs.map fun v => (v, Arm.mk v.1 (g v))).find? fun a => a.2.variant == v).map (·.2) ∧
    ∀ w, (vs.map fun v => (v, Arm.mk v.1 (g v))).find? (fun a => a.2.variant == v) = some w →
      w.2 = ⟨w.1.1, g w.1⟩ := by
  induction vs with
  | nil => exact ⟨rfl, fun _ h => by cases h⟩
  | cons u vs ih =>
    simp only [List.map_cons, List.find?_cons]
    split
    · exact ⟨rfl, fun w h => by cases h; rfl⟩
    · exact ih

theorem scrutinee_relabel (hW : SameWorld f W W') (st : Store μ) (r : Recv) (self : Val α) :
    scrutinee W' (relabelStore f st).tags r (relabelVal f self) =
      (scrutinee W st.tags r self).map fun vx => (f vx.1, vx.2) := by
  have key : ∀ a, (((relabelStore f st).tags a).map fun v => (v, Val.ref (α := α) (W'.field a v))) =
      ((st.tags a).map fun v => (v, Val.ref (W.field a v))).map fun vx => (f vx.1, vx.2) := by
    intro a
    simp only [relabelStore, Option.map_map]
    cases st.tags a with
    | none => rfl
    | some v => simp [hW.field]
  cases r <;> cases self <;> simp only [relabelVal, scrutinee, Option.map_none, Option.map_some] <;>
    first | rfl | exact key _ | skip
  case pin x => cases x <;> simp only [Option.map_none] <;> first | rfl | exact key _

/-- A method that matches on the variants does the same with other names. -/
theorem invoke_relabel (hf : ∀ a b, f a = f b → a = b) (hW : SameWorld f W W') {vs : List (String × List String)}
    {m m' : Method} {g g' : String × List String → Rhs} (hm : m.arms = vs.map fun v => ⟨v.1, g v⟩)
    (hm' : m'.arms = (vs.map fun v => (f v.1, v.2)).map fun v => ⟨v.1, g' v⟩) (hr : m'.recv = m.recv)
    (hp : m'.params = m.params) (F : Val α → Val α)
    (he : ∀ v env st self, evalRhs W' (relabelVal f self) env (relabelStore f st) (g' (f v.1, v.2)) =
      (evalRhs W self env st (g v)).map fun r => (relabelStore f r.1, F r.2))
    (self : Val α) (args : List (Val α)) (st : Store μ) :
    invoke W' m' (relabelVal f self) args (relabelStore f st) =
      (invoke W m self args st).map fun r => (relabelStore f r.1, F r.2) := by
  unfold invoke
  rw [hr, hp]
  split
  · rw [scrutinee_relabel hW]
    cases hx : scrutinee W st.tags m.recv self with
    | none => rfl
    | some vx =>
      obtain ⟨v, x⟩ := vx
      simp only [Option.map_some]
      rw [hm', find_relabel hf vs g g', hm, (find_pair vs g v).1]
      have hq := (find_pair vs g v).2
      cases hu : (vs.map fun v => (v, Arm.mk v.1 (g v))).find? fun a => a.2.variant == v with
      | none => rfl
      | some u =>
        simp only [Option.map_some]
        rw [hq u hu]
        exact he u.1 _ st self
  · rfl

theorem eval_call (hW : SameWorld f W W') (env : List (String × Val α)) (st : Store μ) (self : Val α)
    (ty : List String) (t n : String) (args : List Atom) :
    evalRhs W' (relabelVal f self) env (relabelStore f st) (.call ty t n args) =
      (evalRhs W self env st (.call ty t n args)).map fun r => (relabelStore f r.1, r.2) := by
  simp only [evalRhs, hW.call]
  rw [show evalAtom W' env = evalAtom W env from funext fun x => evalAtom_same hW env x, Option.map_map]
  rfl

end Variants

/-- **C81.** The names of an enum and of its variants do not matter for `#[enum_derive]`: the same implementations are
generated, with the same where clauses, associated types and generic parameters, and calling a method does the same
to values that differ only in the name of the variant. -/
theorem C81 {α μ : Type} (fs : Features) (name : String) (f : String → String) (hf : ∀ a b, f a = f b → a = b)
    (d : Data) (W W' : World α μ) (hW : SameWorld f W W') (toks : List Tok) :
    expand fs (relabel name f d) toks = expand fs d toks ∧ ∀ i,
      (bounds (relabel name f d) i = bounds d i ∧ assocTypes (relabel name f d) i = assocTypes d i ∧
        implParams (relabel name f d) i = implParams d i) ∧
      (methods d i).length = (methods (relabel name f d) i).length ∧
      ∀ (k : Nat) (m m' : Method), (methods d i)[k]? = some m → (methods (relabel name f d) i)[k]? = some m' →
        m'.name = m.name ∧ ∀ self args st,
          invoke W' m' (relabelVal f self) args (relabelStore f st) =
            (invoke W m self args st).map fun r => (relabelStore f r.1, r.2) := by
  refine ⟨?_, fun i => ⟨⟨?_, ?_, ?_⟩, by simp [methods], ?_⟩⟩
  · unfold expand
    simp only [Variants.emit_relabel]
  · simp only [bounds, relabel, List.map_map, Function.comp_def]
  · simp only [assocTypes, relabel]
    cases d.variants <;> rfl
  · simp only [implParams, relabel, List.length_map]
  · intro k m m' hm hm'
    rw [Variants.methods_eq, List.getElem?_map] at hm hm'
    cases hx : (i.forwarded.map Sum.inl ++ i.manual.map Sum.inr)[k]? with
    | none => rw [hx] at hm; cases hm
    | some x =>
      rw [hx] at hm hm'
      cases hm; cases hm'
      cases x with
      | inl s =>
        refine ⟨rfl, Variants.invoke_relabel (m := Variants.gen d i (.inl s))
          (m' := Variants.gen (relabel name f d) i (.inl s)) hf hW (vs := d.variants) rfl rfl rfl rfl id ?_⟩
        intro v env st self
        exact Variants.eval_call hW env st self ..
      | inr s =>
        refine ⟨rfl, Variants.invoke_relabel (m := Variants.gen d i (.inr s))
          (m' := Variants.gen (relabel name f d) i (.inr s)) hf hW (vs := d.variants) rfl rfl rfl rfl id ?_⟩
        intro v env st self
        cases hb : s.body with
        | call n as =>
          dsimp only
          exact Variants.eval_call hW env st self ..
        | some =>
          simp only [evalRhs, Option.map_map]
          rfl

/-- C81 for the methods of `Transpose`, which return values of the enum. -/
theorem C81_transpose {α μ : Type} (name : String) (f : String → String) (hf : ∀ a b, f a = f b → a = b)
    (d : Data) (W W' : World α μ) (hW : SameWorld f W W') (self : Val α) (args : List (Val α)) (st : Store μ) :
    invoke W' (transposeOption (relabel name f d)) (relabelVal f self) args (relabelStore f st) =
      (invoke W (transposeOption d) self args st).map (fun r => (relabelStore f r.1, relabelOk f r.2)) ∧
    invoke W' (transposeOk (relabel name f d)) (relabelVal f self) args (relabelStore f st) =
      (invoke W (transposeOk d) self args st).map (fun r => (relabelStore f r.1, relabelOk f r.2)) ∧
    invoke W' (transposeErr (relabel name f d)) (relabelVal f self) args (relabelStore f st) =
      (invoke W (transposeErr d) self args st).map (fun r => (relabelStore f r.1, relabelErr f r.2)) ∧
    invoke W' (transposeResult (relabel name f d)) (relabelVal f self) args (relabelStore f st) =
      (invoke W (transposeResult d) self args st).map
        (fun r => (relabelStore f r.1, relabelOk f (relabelErr f r.2))) := by
  refine ⟨Variants.invoke_relabel (m := transposeOption d) (m' := transposeOption (relabel name f d)) hf hW (vs := d.variants)
      (g := fun v => .map (.var "x") v.1)
      (g' := fun v => .map (.var "x") v.1) rfl rfl rfl rfl _ ?_ self args st,
    Variants.invoke_relabel (m := transposeOk d) (m' := transposeOk (relabel name f d)) hf hW (vs := d.variants)
      (g := fun v => .map (.var "x") v.1)
      (g' := fun v => .map (.var "x") v.1) rfl rfl rfl rfl _ ?_ self args st,
    Variants.invoke_relabel (m := transposeErr d) (m' := transposeErr (relabel name f d)) hf hW (vs := d.variants)
      (g := fun v => .mapErr (.var "x") v.1)
      (g' := fun v => .mapErr (.var "x") v.1) rfl rfl rfl rfl _ ?_ self args st,
    Variants.invoke_relabel (m := transposeResult d) (m' := transposeResult (relabel name f d)) hf hW (vs := d.variants)
      (g := fun v => .mapErr (.map (.var "x") v.1) v.1)
      (g' := fun v => .mapErr (.map (.var "x") v.1) v.1) rfl rfl rfl rfl (fun r => relabelOk f (relabelErr f r)) ?_
      self args st⟩ <;>
  · intro v env st self
    simp only [evalRhs]
    cases env.lookup "x" with
    | none => rfl
    | some x => cases x <;> rfl

/-- Exchanges the names `A` and `B`. -/
def Ex.exchange (s : String) : String := if s = "A" then "B" else if s = "B" then "A" else s

theorem Ex.exchange_twice (s : String) : Ex.exchange (Ex.exchange s) = s := by
  unfold Ex.exchange
  by_cases h1 : s = "A"
  · subst h1; decide
  · by_cases h2 : s = "B"
    · subst h2; decide
    · simp [h1, h2]

/-- The hypotheses are met if the names of the two variants are exchanged.  Calling `next_back` counts up if the variant is
called `A` in the one enum and `B` in the other. -/
example : (∀ a b, Ex.exchange a = Ex.exchange b → a = b) ∧
    SameWorld Ex.exchange Ex.counters
      { Ex.counters with field := fun a v => Ex.counters.field a (Ex.exchange v) } ∧
    (relabel "Other" Ex.exchange Ex.twoParams).variants = [("B", ["A"]), ("A", ["B"])] ∧
    ((invoke Ex.counters (genForwarded Ex.twoParams Ex.doubleEndedImpl ⟨"next_back", .mut, []⟩) (.ref 10) []
      ⟨fun _ => some "A", fun _ => 5⟩).map fun r => (r.1.tags 10, r.1.mem 11, r.2)) =
        some (some "A", 6, .some (.atom 6)) ∧
    ((invoke { Ex.counters with field := fun a v => Ex.counters.field a (Ex.exchange v) }
      (genForwarded (relabel "Other" Ex.exchange Ex.twoParams) Ex.doubleEndedImpl ⟨"next_back", .mut, []⟩) (.ref 10) []
      ⟨fun _ => some "B", fun _ => 5⟩).map fun r => (r.1.tags 10, r.1.mem 11, r.2)) =
        some (some "B", 6, .some (.atom 6)) :=
  ⟨fun a b h => by rw [← Ex.exchange_twice a, h, Ex.exchange_twice],
    ⟨fun a v => by simp only [Ex.exchange_twice], rfl, rfl⟩, by decide +kernel, by decide +kernel, by decide +kernel⟩

/-- Names must stay distinct: if both variants are called `A`, the second one is never found. -/
example : ((invoke Ex.counters (genForwarded (relabel "Other" (fun _ => "A") Ex.twoParams) Ex.doubleEndedImpl
      ⟨"next_back", .mut, []⟩) (.ref 10) [] ⟨fun _ => some "A", fun _ => 5⟩).map fun r => r.2) ≠
    ((invoke Ex.counters (genForwarded Ex.twoParams Ex.doubleEndedImpl ⟨"next_back", .mut, []⟩) (.ref 10) []
      ⟨fun _ => some "B", fun _ => 5⟩).map fun r => r.2) := by
  decide +kernel

end AutoEnums
