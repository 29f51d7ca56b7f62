import Verif.Lemmas.Runtime
import Verif.Props.C31

/-! # C39–C44: what the generated methods do -/

namespace AutoEnums

open Spec Derive

variable {α μ : Type}

/-! ## C39 and C40 -/

/-- C39, one call: a call on an enum whose discriminant is `v` has the result and the effect of the
call on the payload, and leaves the discriminants alone. -/
theorem C39_call (W : World α μ) (d : Data) (hd : Distinct d) (is : List Impl)
    (his : ∀ i ∈ is, i ∈ table) (r : Req α) (hr : Borrowing is r) (st : Store μ) (a : Nat)
    (v : String) (ty : List String) (hv : (v, ty) ∈ d.variants) (ha : st.tags a = some v) :
    enumCall W d a r st =
      some (⟨st.tags, (payloadCall W ty (W.field a v) r st.mem).1⟩,
        (payloadCall W ty (W.field a v) r st.mem).2) := by
  obtain ⟨impl, sig, args⟩ := r
  obtain ⟨h1, h2, h3, h4, h5⟩ := hr
  simp only at h1 h2 h3 h4 h5
  have hi := his impl h1
  have hn : ((methods d impl).map (·.name)).Nodup := by
    rw [methods_names]; exact table_methods impl hi
  rcases List.mem_append.mp h2 with hs | hs
  · have hm : genForwarded d impl sig ∈ methods d impl :=
      List.mem_append_left _ (List.mem_map.mpr ⟨sig, hs, rfl⟩)
    have hf := find_name hn hm
    unfold enumCall
    rw [show (genForwarded d impl sig).name = sig.name from rfl] at hf
    simp only [hf]
    have hpin := (table_forwarded impl hi sig hs).1
    have hrecv : (genForwarded d impl sig).recv = sig.recv := rfl
    have hx : scrutinee W st.tags sig.recv (selfAt (α := α) a sig.recv) =
        some (v, .ref (W.field a v)) := by
      cases hrc : sig.recv with
      | ref => simp [selfAt, scrutinee, ha]
      | «mut» => simp [selfAt, scrutinee, ha]
      | val => exact absurd hrc h3
      | pin => exact absurd hrc hpin
    rw [hrecv, invoke_forwarded W hd hi hs h4 hv hx, payloadCall]
    have : selfAt (α := α) (W.field a v) sig.recv = .ref (W.field a v) := by
      cases hrc : sig.recv with
      | pin => exact absurd hrc hpin
      | _ => rfl
    rw [this]
  · obtain ⟨m, hm', rfl⟩ := List.mem_map.mp hs
    have hm : genManual d impl m ∈ methods d impl :=
      List.mem_append_right _ (List.mem_map.mpr ⟨m, hm', rfl⟩)
    have hf := find_name hn hm
    unfold enumCall
    rw [show (genManual d impl m).name = m.sig.name from rfl] at hf
    simp only [hf]
    have hrecv : (genManual d impl m).recv = m.sig.recv := rfl
    rcases table_manual impl hi m hm' with ⟨g1, g2, _⟩ | ⟨g1, g2⟩
    · exact absurd (by rw [g1, g2]) h5
    · have hx : scrutinee W st.tags m.sig.recv (selfAt (α := α) a m.sig.recv) =
          some (v, .ref (W.field a v)) := by
        rw [g1]; simp [selfAt, scrutinee, ha]
      rw [hrecv, invoke_manual W hd hi hm' g2 h4 hv hx, payloadCall, g1]
      rfl

/-- C39: for every enum, every set of derived traits and every call history, the results and the
memory are those of the same history on the payload, and the variant stays the same.  `W` is
arbitrary: the traits of the payload may do anything. -/
theorem C39 (W : World α μ) (d : Data) (hd : Distinct d) (is : List Impl)
    (his : ∀ i ∈ is, i ∈ table) (hist : List (Req α)) (hr : ∀ r ∈ hist, Borrowing is r)
    (st : Store μ) (a : Nat) (v : String) (ty : List String) (hv : (v, ty) ∈ d.variants)
    (ha : st.tags a = some v) :
    enumRun W d a hist st =
      some (⟨st.tags, (payloadRun W ty (W.field a v) hist st.mem).1⟩,
        (payloadRun W ty (W.field a v) hist st.mem).2) := by
  induction hist generalizing st with
  | nil => rfl
  | cons r rs ih =>
    rw [enumRun, C39_call W d hd is his r (hr r (by simp)) st a v ty hv ha]
    simp only
    have := ih (fun x hx => hr x (by simp [hx]))
      ⟨st.tags, (payloadCall W ty (W.field a v) r st.mem).1⟩ ha
    rw [this]
    rfl

/-- C39 for methods that consume their receiver: the result is that of consuming the payload. -/
theorem C39_consume (W : World α μ) (d : Data) (hd : Distinct d) (i : Impl) (hi : i ∈ table)
    (s : Sig) (hs : s ∈ i.forwarded) (hval : s.recv = .val) (v : String) (ty : List String)
    (hv : (v, ty) ∈ d.variants) (x : Val α) (args : List (Val α))
    (hl : args.length = s.params.length) (st : Store μ) :
    invoke W (genForwarded d i s) (.variant v x) args st =
      some (⟨st.tags, (W.call ty i.trait s.name (x :: args) st.mem).1⟩,
        (W.call ty i.trait s.name (x :: args) st.mem).2) :=
  invoke_forwarded W hd hi hs hl hv (by rw [hval]; rfl)

/-- The implementations of an expansion are entries of the table, so C39 applies to them. -/
theorem expand_table {fs : Features} {d : Data} {toks : List Tok} {o : Output}
    (ho : expand fs d toks = .ok o) : ∀ i ∈ o.impls, i ∈ table := by
  intro i hi
  have : ∃ ps, IsTraits toks ps := by
    apply Classical.byContradiction
    intro h
    rw [(C38_reject fs d toks).mpr h] at ho
    cases ho
  obtain ⟨ps, h⟩ := this
  obtain ⟨s, _, hg⟩ := (expand_impl h ho).mp hi
  exact (getDerive_iff.mp hg).1

/-- C40: no generated method changes the discriminant of any enum, whatever it is called with. -/
theorem C40 (W : World α μ) (d : Data) (i : Impl) (m : Method) (hm : m ∈ methods d i)
    (self : Val α) (args : List (Val α)) (st st' : Store μ) (r : Val α)
    (h : invoke W m self args st = some (st', r)) : st'.tags = st.tags := by
  have harms : ∀ arm ∈ m.arms, (∃ ty t n as, arm.rhs = .call ty t n as) ∨
      arm.rhs = .some (.var "x") := by
    intro arm ha
    rcases List.mem_append.mp hm with hm | hm
    · obtain ⟨s, _, rfl⟩ := List.mem_map.mp hm
      obtain ⟨v, _, rfl⟩ := List.mem_map.mp ha
      exact .inl ⟨_, _, _, _, rfl⟩
    · obtain ⟨s, _, rfl⟩ := List.mem_map.mp hm
      obtain ⟨v, _, rfl⟩ := List.mem_map.mp ha
      cases hb : s.body with
      | call n as => exact .inl ⟨_, _, _, _, rfl⟩
      | some => exact .inr rfl
  unfold invoke at h
  split at h
  · split at h
    · split at h
      · rename_i arm harm
        rcases harms arm (List.mem_of_find?_eq_some harm) with ⟨ty, t, n, as, hr⟩ | hr
        · refine evalRhs_tags W self _ arm.rhs st st' r (by simp [hr]) ?_ h
          rw [hr]; simp
        · refine evalRhs_tags W self _ arm.rhs st st' r (by simp [hr]) ?_ h
          rw [hr]
          intro e' he'
          simp only [Rhs.some.injEq, reduceCtorEq, or_self, exists_const, or_false] at he'
          subst he'
          right
          simp [evalRhs]
      · cases h
    · cases h
  · cases h

/-! ## C41 -/

/-- The iterator implementation. -/
theorem iterator_mem : ∃ i ∈ table, i.trait = "::core::iter::Iterator" ∧
    ∀ n ∈ ["count", "last", "nth", "fold", "all", "any", "find", "find_map", "position", "collect",
      "partition"], n ∈ i.forwarded.map (·.name) := by decide +kernel

/-- C41: whatever a client does with a borrowed enum through the derived methods, in any number of
calls depending on earlier results, it sees what it would see with the payload. -/
theorem C41_client {S : Type} (c : Client α S) (W : World α μ) (d : Data) (hd : Distinct d)
    (is : List Impl) (his : ∀ i ∈ is, i ∈ table)
    (hc : ∀ s r k, c.step s = .inl (r, k) → Borrowing is r) (n : Nat) (s : S) (st : Store μ)
    (a : Nat) (v : String) (ty : List String) (hv : (v, ty) ∈ d.variants)
    (ha : st.tags a = some v) :
    c.onEnum W d a n s st =
      (c.onPayload W ty (W.field a v) n s st.mem).map fun r => (⟨st.tags, r.1⟩, r.2) := by
  induction n generalizing s st with
  | zero => rfl
  | succ n ih =>
    rw [Client.onEnum, Client.onPayload]
    cases hs : c.step s with
    | inr v => rfl
    | inl p =>
      obtain ⟨r, k⟩ := p
      simp only
      rw [C39_call W d hd is his r (hc s r k hs) st a v ty hv ha]
      simp only
      have := ih (k (payloadCall W ty (W.field a v) r st.mem).2)
        ⟨st.tags, (payloadCall W ty (W.field a v) r st.mem).1⟩ ha
      rw [this]

/-- C41: a method that is not forwarded runs, on the enum, the default implementation, a client of
`next`.  If the payload's own implementation of it (the call `own`) agrees with the default, the enum
gives the payload's result. -/
theorem C41_default {S : Type} (c : Client α S) (s : S) (own : μ → μ × Val α) (W : World α μ)
    (d : Data) (hd : Distinct d) (is : List Impl) (his : ∀ i ∈ is, i ∈ table)
    (hc : ∀ s r k, c.step s = .inl (r, k) → Borrowing is r) (st : Store μ) (a : Nat) (v : String)
    (ty : List String) (hv : (v, ty) ∈ d.variants) (ha : st.tags a = some v) (n : Nat)
    (hown : c.onPayload W ty (W.field a v) n s st.mem = some (own st.mem)) :
    c.onEnum W d a n s st = some (⟨st.tags, (own st.mem).1⟩, (own st.mem).2) := by
  rw [C41_client c W d hd is his hc n s st a v ty hv ha, hown]
  rfl

/-- C41: the consuming and searching methods are forwarded to the payload's own ones, those taking
`self` and those taking `&mut self`. -/
theorem C41_adapters (W : World α μ) (d : Data) (hd : Distinct d) (name : String)
    (hname : name ∈ ["count", "last", "nth", "fold", "all", "any", "find", "find_map", "position",
      "collect", "partition"]) :
    ∃ i ∈ table, i.trait = "::core::iter::Iterator" ∧ ∃ s ∈ i.forwarded, s.name = name ∧
      ∀ (st : Store μ) (v : String) (ty : List String), (v, ty) ∈ d.variants →
      ∀ args : List (Val α), args.length = s.params.length →
      (s.recv = .val ∧ ∀ x, invoke W (genForwarded d i s) (.variant v x) args st =
        some (⟨st.tags, (W.call ty i.trait name (x :: args) st.mem).1⟩,
          (W.call ty i.trait name (x :: args) st.mem).2)) ∨
      (s.recv = .mut ∧ ∀ a, st.tags a = some v →
        invoke W (genForwarded d i s) (.ref a) args st =
        some (⟨st.tags, (W.call ty i.trait name (.ref (W.field a v) :: args) st.mem).1⟩,
          (W.call ty i.trait name (.ref (W.field a v) :: args) st.mem).2)) := by
  have key : ∃ i ∈ table, i.trait = "::core::iter::Iterator" ∧
      ∀ n ∈ ["count", "last", "nth", "fold", "all", "any", "find", "find_map", "position",
        "collect", "partition"], ∃ s ∈ i.forwarded, s.name = n ∧ (s.recv = .val ∨ s.recv = .mut) := by
    decide +kernel
  obtain ⟨i, hi, ht, h⟩ := key
  obtain ⟨s, hs, rfl, hr⟩ := h name hname
  refine ⟨i, hi, ht, s, hs, rfl, ?_⟩
  intro st v ty hv args hl
  rcases hr with hr | hr
  · exact .inl ⟨hr, fun x => invoke_forwarded W hd hi hs hl hv (by rw [hr]; rfl)⟩
  · exact .inr ⟨hr, fun a ha => invoke_forwarded W hd hi hs hl hv (by
      rw [hr]; simp [scrutinee, ha])⟩

/-! ## C42 -/

/-- C42: in any history of calls through a pinned reference to an enum, every call on the payload
has as its receiver a pinned reference to one and the same address, that of the payload inside the
enum, and the enum keeps its variant.  Nothing else is passed as a receiver. -/
theorem C42 (W : World α μ) (d : Data) (hd : Distinct d) (is : List Impl)
    (his : ∀ i ∈ is, i ∈ table) (hist : List (Req α)) (hr : ∀ r ∈ hist, Borrowing is r)
    (hpin : ∀ r ∈ hist, r.sig.recv = .pin) (tags : Nat → Option String) (m : μ) (a : Nat)
    (v : String) (ty : List String) (hv : (v, ty) ∈ d.variants) (ha : tags a = some v) :
    ∃ m' rs, enumRun (logged W) d a hist ⟨tags, m, []⟩ =
      some (⟨tags, m', List.replicate hist.length (.pin (.ref (W.field a v)))⟩, rs) := by
  rw [C39 (logged W) d hd is his hist hr _ a v ty hv ha]
  have key : ∀ (hist : List (Req α)) (m : μ) (log : List (Val α)),
      (∀ r ∈ hist, r.sig.recv = .pin) →
      (payloadRun (logged W) ty ((logged W).field a v) hist (m, log)).1.2 =
        log ++ List.replicate hist.length (.pin (.ref (W.field a v))) := by
    intro hist
    induction hist with
    | nil => intro m log _; simp [payloadRun]
    | cons r rs ih =>
      intro m log h
      rw [payloadRun]
      simp only
      have hr := h r (by simp)
      have : (payloadCall (logged W) ty ((logged W).field a v) r (m, log)).1 =
          ((W.call ty r.impl.trait r.sig.name (.pin (.ref (W.field a v)) :: r.args) m).1,
            log ++ [.pin (.ref (W.field a v))]) := by
        simp [payloadCall, logged, hr, selfAt]
      rw [this, ih _ _ fun x hx => h x (by simp [hx])]
      simp [List.replicate_succ]
  have := key hist m [] hpin
  rw [List.nil_append] at this
  exact ⟨(payloadRun (logged W) ty ((logged W).field a v) hist (m, [])).1.1,
    (payloadRun (logged W) ty ((logged W).field a v) hist (m, [])).2, by rw [← this]⟩

/-! ## C43 -/

/-- C43: `source` of the enum is a reference to the wrapped error, nothing is changed, and the chain
of the enum, whose first step is `source` of the enum and whose further steps are those of the errors
found, is the wrapped error followed by its own chain. -/
theorem C43 (W : World α μ) (d : Data) (hd : Distinct d) (i : Impl) (hi : i ∈ table)
    (ht : i.trait = "::std::error::Error") (st : Store μ) (a : Nat) (v : String) (ty : List String)
    (hv : (v, ty) ∈ d.variants) (ha : st.tags a = some v) (source : Val α → Option (Val α)) :
    ∃ m, sourceOf d i = some m ∧
      invoke W m (.ref a) [] st = some (st, .some (.ref (W.field a v))) ∧
      ∀ l, (∃ w l', invoke W m (.ref a) [] st = some (st, .some w) ∧ l = w :: l' ∧
          Chain source w l') ↔
        ∃ l', l = .ref (W.field a v) :: l' ∧ Chain source (.ref (W.field a v)) l' := by
  obtain ⟨m, h1, h2⟩ := invoke_source W hd hi ht hv ha
  refine ⟨m, h1, h2, ?_⟩
  intro l
  constructor
  · rintro ⟨w, l', h3, h4, h5⟩
    rw [h2] at h3
    simp only [Option.some.injEq, Prod.mk.injEq, true_and, Val.some.injEq] at h3
    subst h3
    exact ⟨l', h4, h5⟩
  · rintro ⟨l', h4, h5⟩
    exact ⟨_, l', h2, h4, h5⟩

/-! ## C44 -/

/-- C44: `transpose` on options. -/
theorem C44_option (W : World α μ) (d : Data) (hd : Distinct d) (v : String) (ty : List String)
    (hv : (v, ty) ∈ d.variants) (x : Val α) (st : Store μ) :
    invoke W (transposeOption d) (.variant v (.some x)) [] st =
      some (st, .some (.variant v x)) ∧
    invoke W (transposeOption d) (.variant v .none) [] st = some (st, .none) := by
  constructor <;>
  · unfold invoke
    simp only [transposeOption, List.length_nil, if_true, scrutinee]
    rw [find_arm hd hv fun v => .map (.var "x") v.1]
    simp [evalRhs]

/-- C44: `transpose` on results. -/
theorem C44_result (W : World α μ) (d : Data) (hd : Distinct d) (v : String) (ty : List String)
    (hv : (v, ty) ∈ d.variants) (x : Val α) (st : Store μ) :
    invoke W (transposeResult d) (.variant v (.ok x)) [] st = some (st, .ok (.variant v x)) ∧
    invoke W (transposeResult d) (.variant v (.err x)) [] st = some (st, .err (.variant v x)) := by
  constructor <;>
  · unfold invoke
    simp only [transposeResult, List.length_nil, if_true, scrutinee]
    rw [find_arm hd hv fun v => .mapErr (.map (.var "x") v.1) v.1]
    simp [evalRhs]

/-- C44: `transpose_ok` wraps the `Ok` payload and passes an error through. -/
theorem C44_ok (W : World α μ) (d : Data) (hd : Distinct d) (v : String) (ty : List String)
    (hv : (v, ty) ∈ d.variants) (x : Val α) (st : Store μ) :
    invoke W (transposeOk d) (.variant v (.ok x)) [] st = some (st, .ok (.variant v x)) ∧
    invoke W (transposeOk d) (.variant v (.err x)) [] st = some (st, .err x) := by
  constructor <;>
  · unfold invoke
    simp only [transposeOk, List.length_nil, if_true, scrutinee]
    rw [find_arm hd hv fun v => .map (.var "x") v.1]
    simp [evalRhs]

/-- C44: `transpose_err` wraps the `Err` payload and passes a success through. -/
theorem C44_err (W : World α μ) (d : Data) (hd : Distinct d) (v : String) (ty : List String)
    (hv : (v, ty) ∈ d.variants) (x : Val α) (st : Store μ) :
    invoke W (transposeErr d) (.variant v (.ok x)) [] st = some (st, .ok x) ∧
    invoke W (transposeErr d) (.variant v (.err x)) [] st = some (st, .err (.variant v x)) := by
  constructor <;>
  · unfold invoke
    simp only [transposeErr, List.length_nil, if_true, scrutinee]
    rw [find_arm hd hv fun v => .mapErr (.var "x") v.1]
    simp [evalRhs]

/-! ## Examples -/

namespace Ex

/-- Payloads are counters: `A` counts up by its argument or by one, `B` down; the memory maps
addresses to numbers. -/
def counters : World Int (Nat → Int) where
  field a v := if v = "A" then a + 1 else a + 2
  tmp := 0
  call ty _ _ args m :=
    match args with
    | .ref a :: _ =>
      let n := m a + if ty = ["A"] then 1 else -1
      (fun b => if b = a then n else m b, .some (.atom n))
    | .pin (.ref a) :: _ => (fun b => if b = a then m a * 2 else m b, .atom (m a))
    | .atom n :: _ => (m, .atom (n + if ty = ["A"] then 100 else 200))
    | _ => (m, .none)

/-- A `B` at address 10. -/
def store : Store (Nat → Int) := ⟨fun a => if a = 10 then some "B" else none, fun _ => 5⟩

/-- A call of `Iterator::next`. -/
def next : Req Int :=
  { impl := (table.find? (·.names == ["Iterator"])).get (by decide +kernel),
    sig := ⟨"next", .mut, []⟩, args := [] }

/-- A call of `Future::poll`. -/
def poll : Req Int :=
  { impl := { path := "core::future", names := ["Future"], trait := "::core::future::Future",
              assoc := ["Output"], pin := true,
              manual := [⟨⟨"poll", .pin, ["cx"]⟩, .call "poll" ["cx"]⟩] },
    sig := ⟨"poll", .pin, ["cx"]⟩, args := [.atom 7] }

end Ex

/-- The hypotheses of C39 and C42 hold for `next, poll, next` and for `poll, poll` on
`enum Enum<A, B>` with the variant `B`; the payload at address 12 is counted down. -/
example : Distinct Ex.twoParams ∧ (∀ r ∈ [Ex.next, Ex.poll, Ex.next], r.impl ∈ table) ∧
    (∀ r ∈ [Ex.next, Ex.poll, Ex.next], Borrowing [Ex.next.impl, Ex.poll.impl] r) ∧
    ("B", ["B"]) ∈ Ex.twoParams.variants ∧ Ex.store.tags 10 = some "B" ∧
    (enumRun Ex.counters Ex.twoParams 10 [Ex.next, Ex.poll, Ex.next] Ex.store).map (·.2) =
      some [.some (.atom 4), .atom 4, .some (.atom 7)] := by
  refine ⟨by decide, by decide +kernel, ?_, by decide, rfl, by decide +kernel⟩
  intro r hr
  have : r = Ex.next ∨ r = Ex.poll := by
    simp only [List.mem_cons, List.not_mem_nil, or_false] at hr
    rcases hr with rfl | rfl | rfl <;> simp
  rcases this with rfl | rfl
  · exact ⟨by decide +kernel, by decide +kernel, by decide, by decide, by decide⟩
  · exact ⟨by decide +kernel, by decide +kernel, by decide, by decide, by decide⟩

/-- C39_consume: `count` on a `B` by value. -/
example : (invoke Ex.counters (genForwarded Ex.twoParams Ex.next.impl ⟨"count", .val, []⟩)
    (.variant "B" (.atom 3)) [] Ex.store).map (·.2) = some (.atom 203) := by decide +kernel

/-- C41: a client that calls `next` until it sees a number below 3, and the number of calls. -/
example :
    let c : Client Int (Nat ⊕ Nat) :=
      ⟨fun
        | .inl n => .inl (Ex.next, fun v => match v with
            | .some (.atom k) => if k < 3 then .inr (n + 1) else .inl (n + 1)
            | _ => .inr n)
        | .inr n => .inr (.atom n)⟩
    (c.onEnum Ex.counters Ex.twoParams 10 9 (.inl 0) Ex.store).map (·.2) = some (.atom 3) ∧
    (c.onPayload Ex.counters ["B"] 12 9 (.inl 0) Ex.store.mem).map (·.2) = some (.atom 3) := by
  decide +kernel

/-- C43: the hypotheses hold for the only implementation of `Error`. -/
example : ∃ i ∈ table, i.trait = "::std::error::Error" ∧
    ((sourceOf Ex.twoParams i).bind fun m =>
      (invoke Ex.counters m (.ref 10) [] Ex.store).map (·.2)) = some (.some (.ref 12)) := by
  decide +kernel

/-- C43: a chain of three errors. -/
example : Chain (α := Int) (fun v => match v with
    | .ref 12 => some (.ref 20)
    | .ref 20 => some (.ref 30)
    | _ => none) (.ref 12) [.ref 20, .ref 30] :=
  .step rfl (.step rfl (.done rfl))

/-- C44: transposes of a `B`. -/
example :
    (invoke Ex.counters (transposeOption Ex.twoParams) (.variant "B" (.some (.atom 1))) []
      Ex.store).map (·.2) = some (.some (.variant "B" (.atom 1))) ∧
    (invoke Ex.counters (transposeResult Ex.twoParams) (.variant "A" (.err (.atom 1))) []
      Ex.store).map (·.2) = some (.err (.variant "A" (.atom 1))) := by decide +kernel

end AutoEnums
