import Verif.Spec.Nest
import Verif.Props.C39

/-! # C83: an enum in enums acts like the innermost value -/

namespace AutoEnums

open Spec Derive

variable {α μ : Type}

theorem Nest.call {W : World α μ} {tags : Nat → Option String} {is : List Impl} (his : ∀ i ∈ is, i ∈ table)
    {a b : Nat} {d : Data} {ty : List String} (h : Holds W tags is a d b ty) (r : Req α) (hr : Borrowing is r) (m : μ) :
    enumCall W d a r ⟨tags, m⟩ = some (⟨tags, (payloadCall W ty b r m).1⟩, (payloadCall W ty b r m).2) := by
  induction h generalizing m with
  | here hd hv ha => exact C39_call W _ hd is his r hr ⟨tags, m⟩ _ _ _ hv ha
  | inner hd hv ha he _ ih =>
    rw [C39_call W _ hd is his r hr ⟨tags, m⟩ _ _ _ hv ha, he _ r hr m _ _ (ih m)]

/-- C83: every call history on an enum that contains a value, directly or in enums in it to any depth, has the
results and the effect of the same history on that value, and no variant changes. -/
theorem C83 (W : World α μ) (tags : Nat → Option String) (is : List Impl) (his : ∀ i ∈ is, i ∈ table)
    (a b : Nat) (d : Data) (ty : List String) (h : Holds W tags is a d b ty) (hist : List (Req α))
    (hr : ∀ r ∈ hist, Borrowing is r) (m : μ) :
    enumRun W d a hist ⟨tags, m⟩ =
      some (⟨tags, (payloadRun W ty b hist m).1⟩, (payloadRun W ty b hist m).2) := by
  induction hist generalizing m with
  | nil => rfl
  | cons r rs ih =>
    rw [enumRun, Nest.call his h r (hr r (by simp)) m]
    simp only
    rw [ih fun x hx => hr x (by simp [hx])]
    rfl

/-- C83: so it does not matter in which and in how many enums the value is. -/
theorem C83_flat (W : World α μ) (tags : Nat → Option String) (is : List Impl) (his : ∀ i ∈ is, i ∈ table)
    (a a' b : Nat) (d d' : Data) (ty : List String) (h : Holds W tags is a d b ty) (h' : Holds W tags is a' d' b ty)
    (hist : List (Req α)) (hr : ∀ r ∈ hist, Borrowing is r) (m : μ) :
    enumRun W d a hist ⟨tags, m⟩ = enumRun W d' a' hist ⟨tags, m⟩ := by
  rw [C83 W tags is his a b d ty h hist hr, C83 W tags is his a' b d' ty h' hist hr]

/-- C83 for methods that consume their receiver. -/
theorem C83_consume (W : World α μ) (tags : Nat → Option String) (i : Impl) (hi : i ∈ table) (s : Sig)
    (hs : s ∈ i.forwarded) (hval : s.recv = .val) (x y : Val α) (d : Data) (ty : List String)
    (h : HoldsVal W tags i s x d y ty) (args : List (Val α)) (hl : args.length = s.params.length) (m : μ) :
    invoke W (genForwarded d i s) x args ⟨tags, m⟩ =
      some (⟨tags, (W.call ty i.trait s.name (y :: args) m).1⟩, (W.call ty i.trait s.name (y :: args) m).2) := by
  induction h generalizing m with
  | here hd hv => exact C39_consume W _ hd i hi s hs hval _ _ hv _ args hl _
  | inner hd hv he _ ih =>
    rw [C39_consume W _ hd i hi s hs hval _ _ hv _ args hl, he _ args m _ _ hl (ih m)]

/-! ## Examples -/

namespace Ex

/-- The variants of all enums: `A` at the address 12, `B` elsewhere. -/
def deepTags : Nat → Option String := fun a => some (if a = 12 then "A" else "B")

/-- The counters and a type `Inner`, which is the enum `Enum<A, B>`. -/
def deep : World Int (Nat → Int) where
  field := counters.field
  tmp := counters.tmp
  call ty t f args m :=
    if ty = ["Inner"] then
      match args with
      | .ref a :: rest => counters.call [(deepTags a).getD ""] t f (.ref (counters.field a ((deepTags a).getD "")) :: rest) m
      | .pin (.ref a) :: rest =>
        counters.call [(deepTags a).getD ""] t f (.pin (.ref (counters.field a ((deepTags a).getD ""))) :: rest) m
      | .variant v x :: rest => counters.call [v] t f (x :: rest) m
      | _ => (m, .none)
    else counters.call ty t f args m

/-- `enum Outer<A, Inner> { A(A), B(Inner) }` -/
def outer : Data := { twoParams with ident := "Outer", variants := [("A", ["A"]), ("B", ["Inner"])] }

theorem deep_inner (is : List Impl) (his : ∀ i ∈ is, i ∈ table) : IsEnum deep deepTags is ["Inner"] twoParams := by
  intro a r hr m st v h
  have ht : ∀ a, ((deepTags a).getD "", [(deepTags a).getD ""]) ∈ twoParams.variants ∧
      [(deepTags a).getD ""] ≠ ["Inner"] := by
    intro a
    simp only [deepTags, Option.getD_some]
    split <;> decide
  rw [C39_call deep twoParams (by decide) is his r hr ⟨deepTags, m⟩ a _ _ (ht a).1 rfl] at h
  cases h
  cases hs : r.sig.recv <;> simp only [payloadCall, hs, selfAt, deep, if_true, if_neg (ht a).2]

/-- A `B` at 10, in which there is an `A` at 12, in which there is a counter at 13. -/
theorem deep_holds : Holds deep deepTags [next.impl, poll.impl] 10 outer 13 ["A"] :=
  .inner (v := "B") (ty := ["Inner"]) (by decide) (by decide) rfl (deep_inner _ (by decide +kernel))
    (.here (v := "A") (by decide) (by decide) rfl)

end Ex

/-- The hypotheses of C83 hold; the counter at the address 13 is counted up by calls on the outer enum. -/
example : (∀ r ∈ [Ex.next, Ex.poll, Ex.next], Borrowing [Ex.next.impl, Ex.poll.impl] r) ∧
    Holds Ex.deep Ex.deepTags [Ex.next.impl, Ex.poll.impl] 10 Ex.outer 13 ["A"] ∧
    (enumRun Ex.deep Ex.outer 10 [Ex.next, Ex.poll, Ex.next] ⟨Ex.deepTags, fun _ => 5⟩).map (fun r => (r.2, r.1.mem 13)) =
      some ([.some (.atom 6), .atom 6, .some (.atom 13)], 13) := by
  refine ⟨?_, Ex.deep_holds, by decide +kernel⟩
  intro r hr
  have : r = Ex.next ∨ r = Ex.poll := by
    simp only [List.mem_cons, List.not_mem_nil, or_false] at hr
    rcases hr with rfl | rfl | rfl <;> simp
  rcases this with rfl | rfl
  · exact ⟨by decide +kernel, by decide +kernel, by decide, by decide, by decide⟩
  · exact ⟨by decide +kernel, by decide +kernel, by decide, by decide, by decide⟩

/-- C83_flat: the same counter in the inner enum only. -/
example : Holds Ex.deep Ex.deepTags [Ex.next.impl, Ex.poll.impl] 12 Ex.twoParams 13 ["A"] :=
  .here (v := "A") (by decide) (by decide) rfl

/-- C83_consume for `Iterator::count` on a `B` in a `B`. -/
example : HoldsVal Ex.deep Ex.deepTags Ex.next.impl ⟨"count", .val, []⟩ (.variant "B" (.variant "B" (.atom 3))) Ex.outer
      (.atom 3) ["B"] ∧ Ex.next.impl ∈ table ∧ (⟨"count", .val, []⟩ : Sig) ∈ Ex.next.impl.forwarded ∧
    (invoke Ex.deep (genForwarded Ex.outer Ex.next.impl ⟨"count", .val, []⟩) (.variant "B" (.variant "B" (.atom 3))) []
      ⟨Ex.deepTags, fun _ => 5⟩).map (·.2) = some (.atom 203) := by
  refine ⟨.inner (d' := Ex.twoParams) (ty := ["Inner"]) (by decide) (by decide) ?_ (.here (by decide) (by decide)), by decide +kernel,
    by decide +kernel, by decide +kernel⟩
  intro x args m st v hl h
  match x with
  | .variant u y =>
    by_cases hu : u = "A" ∨ u = "B"
    · have hm : (u, [u]) ∈ Ex.twoParams.variants ∧ [u] ≠ ["Inner"] := by
        rcases hu with rfl | rfl <;> decide
      rw [C39_consume Ex.deep Ex.twoParams (by decide) Ex.next.impl (by decide +kernel) _ (by decide +kernel) rfl u [u] hm.1 y
        args hl] at h
      cases h
      simp only [Ex.deep, if_true, if_neg hm.2]
    · have : invoke Ex.deep (genForwarded Ex.twoParams Ex.next.impl ⟨"count", .val, []⟩) (.variant u y) args
          ⟨Ex.deepTags, m⟩ = none := by
        have h1 : ("A" == u) = false := by simpa using fun e => hu (.inl e.symm)
        have h2 : ("B" == u) = false := by simpa using fun e => hu (.inr e.symm)
        simp [invoke, genForwarded, scrutinee, Ex.twoParams, h1, h2]
      rw [this] at h
      cases h
  | .atom _ | .ref _ | .pin _ | .some _ | .none | .ok _ | .err _ =>
    exfalso
    simp [invoke, genForwarded, scrutinee] at h

end AutoEnums
