import Verif.Lemmas.Request
import Verif.Props.C28
import Verif.Props.C57

/-! # C60–C62: the two macros together -/

namespace AutoEnums

open Spec Derive

/-! ## C60 -/

/-- C60: whatever the enabled features, `#[enum_derive]` accepts every enum that an expansion adds, `Transpose`
included, and provides every trait of its attribute: supported traits are implemented, others are passed to
`#[derive]`. -/
theorem C60 (env : Env) (fuel h : Nat) (toks : List Tok) (input : Input) (n out : Node)
    (hin : input = .stmt n ∨ input = .expr n) (hrun : autoEnum env fuel h toks input = .code out)
    (e : GenEnum) (he : e ∈ enums out) (hnew : e ∉ enums n) (fs : Features) :
    ∃ o, expand fs e.data e.request = .ok o ∧ ∀ p ∈ e.derives,
      (Supported fs (spelling p) → ∃ i ∈ o.impls, spelling p ∈ i.names) ∧
      (¬ Supported fs (spelling p) → p ∈ o.derive) := by
  obtain ⟨hw, hd⟩ := (C02_generated_enums env fuel h toks input n out hin hrun e he).resolve_left hnew
  have hs := Request.derives_segs hd
  obtain ⟨o, ho⟩ := Request.expand_wf fs hw hs
  exact ⟨o, ho, Request.provided hs ho⟩

/-- `#[auto_enum(Iterator, Transpose, Clone)]` -/
def Ex.threeTraits : List Tok := [.ident "Iterator", .comma, .ident "Transpose", .comma, .ident "Clone"]

/-- The hypotheses are met by an expansion with an enum that has two variants. -/
example : ∃ out, autoEnum Ex.env 20 5 Ex.threeTraits (.stmt Ex.letIn) = .code out ∧ enums Ex.letIn = [] ∧
    ∃ e ∈ enums out, e.derives = [.ofIdents ["Iterator"], .ofIdents ["Transpose"], .ofIdents ["Clone"]] ∧
      Supported Ex.all "Transpose" ∧ ¬ Supported Ex.all "Clone" := by
  have h := Ex.of_check (o := autoEnum Ex.env 20 5 Ex.threeTraits (.stmt Ex.letIn))
    (p := fun out => (enums out).any fun e =>
      e.derives = [.ofIdents ["Iterator"], .ofIdents ["Transpose"], .ofIdents ["Clone"]]) (by decide +kernel)
  obtain ⟨out, h1, h2⟩ := h
  obtain ⟨e, he, h3⟩ := List.any_eq_true.mp h2
  exact ⟨out, h1, by decide +kernel, e, he, of_decide_eq_true h3, by decide +kernel, by decide +kernel⟩

/-- An enum whose fields are not its type parameters is rejected if `Transpose` is requested. -/
example : ∃ e : GenEnum, e.derives = [.ofIdents ["Transpose"]] ∧ e.variants.length = 2 ∧
    ∀ o, expand Ex.all e.data e.request ≠ .ok o := by
  refine ⟨⟨"E", ["A", "B"], [("A", "A"), ("B", "A")], [.ofIdents ["Transpose"]]⟩, rfl, rfl, ?_⟩
  intro o ho
  have : (expand Ex.all (GenEnum.data ⟨"E", ["A", "B"], [("A", "A"), ("B", "A")], [.ofIdents ["Transpose"]]⟩)
    (GenEnum.request ⟨"E", ["A", "B"], [("A", "A"), ("B", "A")], [.ofIdents ["Transpose"]]⟩)).isOk = false := by
    decide +kernel
  rw [ho] at this
  cases this

/-! ## C61 -/

/-- What becomes of an enum at a place where its discriminant is `x`: `#[enum_derive]` accepts it and provides
the `traits`, and whatever is called, and in whatever order, has the results and the effects of the same calls on
the payload; so has a final call that consumes the enum. -/
def Behaves {α μ : Type} (W : World α μ) (fs : Features) (traits : List Path) (e : GenEnum) (x : Ident) : Prop :=
  ∃ o, expand fs e.data e.request = .ok o ∧
    (∀ p ∈ traits, (Supported fs (spelling p) → ∃ i ∈ o.impls, spelling p ∈ i.names) ∧
      (¬ Supported fs (spelling p) → p ∈ o.derive)) ∧
    (∀ (hist : List (Req α)), (∀ r ∈ hist, Borrowing o.impls r) → ∀ (st : Store μ) (a : Nat),
      st.tags a = some x → enumRun W e.data a hist st =
        some (⟨st.tags, (payloadRun W [x] (W.field a x) hist st.mem).1⟩,
          (payloadRun W [x] (W.field a x) hist st.mem).2)) ∧
    ∀ i ∈ o.impls, ∀ s ∈ i.forwarded, s.recv = .val → ∀ (y : Val α) (args : List (Val α)) (st : Store μ),
      args.length = s.params.length →
      (((methods e.data i).find? fun g => g.name == s.name).bind fun g => invoke W g (.variant x y) args st) =
        some (⟨st.tags, (W.call [x] i.trait s.name (y :: args) st.mem).1⟩,
          (W.call [x] i.trait s.name (y :: args) st.mem).2)

theorem Request.behaves {α μ : Type} (W : World α μ) (fs : Features) {env : Env} {traits : List Path} {en : Ident}
    {m : String} {n out : Node} (h : Accepted env traits en m n out) (hs : Simple en m n) (hn : enums n = [])
    {x : Ident} (hx : x ∈ declared en out) :
    ∃ e ∈ enums out, e.name = en ∧ (x, x) ∈ e.variants ∧ Behaves W fs traits e x := by
  obtain ⟨e, he, hen, hx⟩ := Request.declared_enum hx
  obtain ⟨hw, hd, ht⟩ := Request.accepted_enum h hs hn e he
  obtain ⟨hx1, hx2⟩ := Request.wf_variant hw hx
  obtain ⟨o, ho⟩ := Request.expand_wf fs hw hd
  refine ⟨e, he, hen, hx1, o, ho, fun p hp => Request.provided hd ho p (ht p hp), ?_, ?_⟩
  · intro hist hb st a ha
    exact C39 W e.data (Request.wf_distinct hw) o.impls (expand_table ho) hist hb st a x [x] hx2 ha
  · intro i hi s hs hval y args st hl
    have hit := expand_table ho i hi
    have hm : genForwarded e.data i s ∈ methods e.data i :=
      List.mem_append_left _ (List.mem_map.mpr ⟨s, hs, rfl⟩)
    have hf := find_name (by rw [methods_names]; exact table_methods i hit) hm
    rw [show (genForwarded e.data i s).name = s.name from rfl] at hf
    rw [hf]
    exact C39_consume W e.data (Request.wf_distinct hw) i hit s hs hval x [x] hx2 y args hl st

/-- C61: if the original code (without its markers) ends with a value, or returns one from the attributed function
or closure, then the expansion ends in the same state with an enum that behaves like this value: it provides the
requested traits, and every call history on it has the results and effects of the same history on the value. -/
theorem C61_partial {B S α μ : Type} (M : Machine B S) (W : World α μ) (fs : Features) (env : Env)
    (traits : List Path) (en : Ident) (m : String) (n out : Node) (h : Accepted env traits en m n out)
    (hs : Simple en m n) (hn : enums n = []) (hb : (jobOf en m n).branches = true)
    (hsup : Consistent M (jobOf en m n) [] .result (startOf n))
    (hw : isWrapped (jobOf en m n) .result (startOf n) = true ∨ NeverCompletes M en (withoutMarkers m (startOf n)))
    (f : Nat) (s s' : S) (v : Value B) :
    (run M en f (withoutMarkers m (startOf n)) s = some (.val v, s') →
      ∃ x, run M en f (counterpart n out) s = some (.val (.inj x v), s') ∧
        ∃ e ∈ enums out, e.name = en ∧ (x, x) ∈ e.variants ∧ Behaves W fs traits e x) ∧
    ((jobOf en m n).returns = true → run M en f (withoutMarkers m (startOf n)) s = some (.ret v, s') →
      ∃ x, run M en f (counterpart n out) s = some (.ret (.inj x v), s') ∧
        ∃ e ∈ enums out, e.name = en ∧ (x, x) ∈ e.variants ∧ Behaves W fs traits e x) := by
  have ha := C28_marked_partial M env traits en m n out h hs hb hsup hw f s
  constructor
  · intro hrun
    rw [hrun] at ha
    match hy : run M en f (counterpart n out) s with
    | none => rw [hy] at ha; exact ha.elim
    | some (o, t) =>
      rw [hy] at ha
      obtain ⟨rfl, ha⟩ := ha
      cases o <;> simp only [Wraps] at ha
      obtain ⟨x, hx, rfl⟩ := ha
      exact ⟨x, rfl, Request.behaves W fs h hs hn hx⟩
  · intro hr hrun
    rw [hrun] at ha
    match hy : run M en f (counterpart n out) s with
    | none => rw [hy] at ha; exact ha.elim
    | some (o, t) =>
      rw [hy] at ha
      obtain ⟨rfl, ha⟩ := ha
      cases o <;> simp only [Wraps, hr] at ha
      obtain ⟨x, hx, rfl⟩ := ha
      exact ⟨x, rfl, Request.behaves W fs h hs hn hx⟩

/-- The hypotheses are met by a function with markers: one run ends with a value, another one returns. -/
example : ∃ out, Accepted Ex.env [.ofIdents ["Iterator"]] "__Enum5" "marker" Ex.markedIn out ∧
    Simple "__Enum5" "marker" Ex.markedIn ∧ enums Ex.markedIn = [] ∧
    (jobOf "__Enum5" "marker" Ex.markedIn).branches = true ∧
    (jobOf "__Enum5" "marker" Ex.markedIn).returns = true ∧
    consistent (jobOf "__Enum5" "marker" Ex.markedIn) [] .result (startOf Ex.markedIn) = true ∧
    isWrapped (jobOf "__Enum5" "marker" Ex.markedIn) .result (startOf Ex.markedIn) = true ∧
    run Ex.machine "__Enum5" 9 (withoutMarkers "marker" (startOf Ex.markedIn)) "0" =
      some (.val (.base "2"), "0") ∧
    run Ex.machine "__Enum5" 9 (withoutMarkers "marker" (startOf Ex.markedIn)) "true" =
      some (.ret (.base "1"), "true") := by
  have h := Ex.of_check (o := autoEnum Ex.env 20 5 Ex.iterator (.stmt Ex.markedIn))
    (p := fun _ => true) (by decide +kernel)
  obtain ⟨out, h1, -⟩ := h
  exact ⟨out, Ex.accepted_stmt rfl h1, ⟨by decide +kernel, by decide +kernel, by decide +kernel⟩,
    by decide +kernel, by decide +kernel, by decide +kernel, by decide +kernel, by decide +kernel,
    by decide +kernel, by decide +kernel⟩

/-- C61 in the mode that desugars `?`, for errors: if a `?` of the original code fails with `Err(v)`, then the
expansion returns in the same state `Err(..)` of an enum that behaves like `v`; and if the original code ends with a
value or returns one, so does the expansion. -/
theorem C61_tries_partial {B S α μ : Type} (M : Machine B S) (L : Results M) (W : World α μ) (fs : Features) (env : Env)
    (traits : List Path) (en : Ident) (m : String) (n out : Node) (h : Accepted env traits en m n out)
    (hs : Simple en m n) (hn : enums n = []) (ht : (jobOf en m n).tries = true)
    (hf : Fallible M L.ok (jobOf en m n) false (startOf n)) (f : Nat) (s s' : S) :
    (∀ w, run M en (f + 1) (startOf n) s = some (.fail w, s') →
      ∃ v x, w = M.err v ∧ run M en (f + 1) (counterpart n out) s = some (.ret (M.err (.inj x v)), s') ∧
        ∃ e ∈ enums out, e.name = en ∧ (x, x) ∈ e.variants ∧ Behaves W fs traits e x) ∧
    (∀ v, run M en (f + 1) (startOf n) s = some (.val v, s') →
      run M en (f + 1) (counterpart n out) s = some (.val v, s')) ∧
    ∀ v, run M en (f + 1) (startOf n) s = some (.ret v, s') →
      run M en (f + 1) (counterpart n out) s = some (.ret v, s') := by
  have ha := C28_try_partial M L env traits en m n out h hs ht hf f s
  refine ⟨fun w hrun => ?_, fun v hrun => ?_, fun v hrun => ?_⟩ <;> rw [hrun] at ha <;>
    match hy : run M en (f + 1) (counterpart n out) s with
    | none => rw [hy] at ha; exact ha.elim
    | some (o, t) => ?_
  · rw [hy] at ha
    obtain ⟨rfl, v, rfl, x, hx, rfl⟩ := ha
    exact ⟨v, x, rfl, rfl, Request.behaves W fs h hs hn hx⟩
  · rw [hy] at ha
    obtain ⟨rfl, ha⟩ := ha
    cases ha
    rfl
  · rw [hy] at ha
    obtain ⟨rfl, ha⟩ := ha
    cases ha
    rfl

/-- The hypotheses are met by the function `Ex.tryFnIn`, two of whose `?`s fail in some run. -/
example : ∃ out, Accepted Ex.env [.ofIdents ["Iterator"]] "__Enum5" "marker" Ex.tryFnIn out ∧
    Simple "__Enum5" "marker" Ex.tryFnIn ∧ enums Ex.tryFnIn = [] ∧ (jobOf "__Enum5" "marker" Ex.tryFnIn).tries = true ∧
    Fallible Ex.resMachine Ex.resLaws.ok (jobOf "__Enum5" "marker" Ex.tryFnIn) false (startOf Ex.tryFnIn) ∧
    run Ex.resMachine "__Enum5" 9 (startOf Ex.tryFnIn) ("x", []) = some (.fail (.inj "Err" (.base "x")), ("x", [])) ∧
    run Ex.resMachine "__Enum5" 9 (startOf Ex.tryFnIn) ("y", []) = some (.fail (.inj "Err" (.base "y")), ("y", [])) := by
  obtain ⟨out, h1, h2, h3, h4, -⟩ := Ex.tryFn_met
  exact ⟨out, h1, h2, by decide +kernel, h3, h4, by decide +kernel, by decide +kernel⟩

/-! ## C62 -/

/-- C62: if the original code is well typed but for the types of its branches, then the expansion has the type of
the generated enum, and the implementation of a requested trait for that type applies exactly if the types of all
branches implement the trait, with the same associated types. -/
theorem C62_partial {T Sc : Type} (R : Rules T Sc) (hR : Infers R) (E : T) (fs : Features) (env : Env) (traits : List Path) (en : Ident)
    (m : String) (n out : Node) (h : Accepted env traits en m n out) (hs : Simple en m n) (hn : enums n = [])
    (hb : (jobOf en m n).branches = true)
    (hc : typable (jobOf en m n) .result (startOf n) = true)
    (Γ : Around T Sc) (hret : (jobOf en m n).returns = true → Γ.ret = .free)
    (hty : typedAs true R ⟨en, E, fun _ _ => False⟩ m (startOf n) Γ .free) :
    ∃ σ : Ident → T,
      typed R ⟨en, E, fun x t => t = σ x⟩ (counterpart n out)
        { Γ with ret := if (jobOf en m n).returns then .is E else Γ.ret } (.is E) ∧
      (∃ e ∈ enums out, e.name = en ∧ 2 ≤ e.variants.length) ∧
      ∀ e ∈ enums out, ∃ o, expand fs e.data e.request = .ok o ∧
        ∀ p ∈ traits, Supported fs (spelling p) → ∀ t, (spelling p, t) ∈ declarations →
          ∃ i ∈ o.impls, i.trait = t.path ∧ ∀ Θ : Typing T, (∀ v ∈ e.variants, Θ.denote [v.2] = σ v.1) →
            (Θ.Applies (bounds e.data i) ↔ Θ.Uniform t (Θ.args i.args) (e.variants.map fun v => σ v.1) ∧
              (spelling p = "Error" → ∀ v ∈ e.variants, Θ.static (σ v.1))) := by
  obtain ⟨σ, hσ⟩ := C57_partial R hR E env traits en m n out h hs hb hc Γ hret hty
  refine ⟨σ, hσ, Request.accepted_some h hs, ?_⟩
  intro e he
  obtain ⟨hw, hd, ht⟩ := Request.accepted_enum h hs hn e he
  obtain ⟨o, ho⟩ := Request.expand_wf fs hw hd
  refine ⟨o, ho, ?_⟩
  intro p hp hsu t htd
  obtain ⟨i, hi, hin⟩ := (Request.provided hd ho p (ht p hp)).1 hsu
  have hne : e.data.variants ≠ [] := by
    obtain ⟨-, k, hk, -, hv⟩ := hw
    intro h0
    have := congrArg List.length h0
    simp [GenEnum.data, hv, variantNames] at this
    omega
  obtain ⟨h1, -, -⟩ := C49 ⟨fun _ => (), fun _ _ _ => True, fun _ _ _ _ => (), fun _ => True⟩ fs e.data e.request
    o ho hne i hi _ hin t htd
  refine ⟨i, hi, h1, ?_⟩
  intro Θ hΘ
  obtain ⟨-, -, h2⟩ := C49 Θ fs e.data e.request o ho hne i hi _ hin t htd
  have hpay : Θ.payloads e.data = e.variants.map fun v => σ v.1 := by
    simp only [Typing.payloads, GenEnum.data, List.map_map]
    exact List.map_congr_left fun v hv => hΘ v hv
  rw [hpay] at h2
  rw [h2, List.forall_mem_map]

/-- The hypotheses are met by the function `Ex.fnIn`, whose branches have three different types, and the trait it
asks for is supported and declared. -/
example : Accepted Ex.env [.ofIdents ["Iterator"]] "__Enum5" "marker" Ex.fnIn Ex.fnOut ∧
    Simple "__Enum5" "marker" Ex.fnIn ∧ enums Ex.fnIn = [] ∧
    (jobOf "__Enum5" "marker" Ex.fnIn).branches = true ∧
    typable (jobOf "__Enum5" "marker" Ex.fnIn) .result (startOf Ex.fnIn) = true ∧
    typedAs true Ex.rules ⟨"__Enum5", "enum", fun _ _ => False⟩ "marker" (startOf Ex.fnIn) Ex.outside .free ∧
    Infers Ex.rules ∧ Supported Ex.default (spelling (.ofIdents ["Iterator"])) ∧
    ∃ t, (spelling (.ofIdents ["Iterator"]), t) ∈ declarations := by
  refine ⟨Ex.fn_accepted, Ex.fn_simple, by decide +kernel, by decide +kernel, by decide +kernel, ?_,
    Ex.rules_infer, by decide +kernel, ?_⟩
  · simp only [Ex.fnIn, Ex.fnBody]
    typing
  · have : (declarations.any fun t => t.1 == spelling (.ofIdents ["Iterator"])) = true := by decide +kernel
    obtain ⟨⟨s, t⟩, h1, h2⟩ := List.any_eq_true.mp this
    exact ⟨t, by simp only [beq_iff_eq] at h2; rw [← h2]; exact h1⟩

end AutoEnums
