import Verif.Spec.Request
import Verif.Props.C02
import Verif.Props.C45
import Verif.Props.C49
import Verif.Lemmas.Accepted
import Verif.Spec.Eval
import Verif.Props.C39

/-! # Lemmas: generated enums are accepted by `#[enum_derive]` -/

namespace AutoEnums

open Spec Derive

namespace Request

theorem name_ne {t s : String} (h : s.length < 9) : "__Variant" ++ t ≠ s := by
  rintro rfl
  rw [String.length_append] at h
  have : "__Variant".length = 9 := rfl
  omega

theorem name_quote (t n : String) : "__Variant" ++ t ≠ "'" ++ n := by
  intro h
  have := congrArg String.toList h
  simp [String.toList_append] at this

theorem oneItem {g : String} (hg : ∃ t, g = "__Variant" ++ t) : OneItem [g] := by
  obtain ⟨t, rfl⟩ := hg
  refine ⟨by simp, ?_⟩
  simp only [nestAll, nest]
  rw [if_neg, if_neg, if_neg]
  · rfl
  · rintro ⟨h, -⟩; exact name_ne (by decide) h
  · simp only [List.mem_cons, List.not_mem_nil, or_false]
    rintro (h | h | h | h) <;> exact name_ne (by decide) h
  · simp only [List.mem_cons, List.not_mem_nil, or_false]
    rintro (h | h | h | h) <;> exact name_ne (by decide) h

theorem typeLike {g : String} (hg : ∃ t, g = "__Variant" ++ t) : TypeLike [g] where
  item := oneItem hg
  noLifetime n r h := by
    obtain ⟨t, rfl⟩ := hg
    exact name_quote _ _ (List.cons.inj h).1
  noConst r h := by
    obtain ⟨t, rfl⟩ := hg
    exact name_ne (by decide) (List.cons.inj h).1
  noAttr r h := by
    obtain ⟨t, rfl⟩ := hg
    exact name_ne (by decide) (List.cons.inj h).1
  noColon n r h := by cases h
  noEq n r h := by cases h

theorem checkFields_wf {e : GenEnum} (h : WellFormed e) : checkFields e.data = true := by
  obtain ⟨-, k, hk, hg, hv⟩ := h
  have hn : ∀ g ∈ variantNames k, ∃ t, g = "__Variant" ++ t := by
    intro g hg
    obtain ⟨i, -, rfl⟩ := List.mem_map.mp hg
    exact ⟨_, rfl⟩
  rw [checkFields_iff]
  · refine ⟨?_, ?_, ?_⟩
    · simp only [GenEnum.data, hg, variantNames]
      intro h
      have := congrArg List.length h
      simp at this
      omega
    · intro p hp
      simp only [GenEnum.data] at hp
      obtain ⟨g, -, rfl⟩ := List.mem_map.mp hp
      exact ⟨rfl, g, rfl⟩
    · simp [GenEnum.data, hg, hv, List.map_map, Function.comp_def]
  · intro p hp
    simp only [GenEnum.data, hg] at hp
    obtain ⟨g, hg, rfl⟩ := List.mem_map.mp hp
    exact ⟨oneItem (hn g hg), .inl ⟨g, rfl⟩⟩
  · intro v hv'
    simp only [GenEnum.data, hv, List.map_map, Function.comp_def] at hv'
    obtain ⟨g, hg, rfl⟩ := List.mem_map.mp hv'
    exact typeLike (hn g hg)

theorem expand_wf (fs : Features) {e : GenEnum} (h : WellFormed e) (hd : ∀ p ∈ e.derives, p.segs ≠ []) :
    ∃ o, expand fs e.data e.request = .ok o := by
  refine (expand_ok_iff (toks := e.request) ⟨false, hd, rfl⟩).mpr ?_
  intro i s _ _
  simp [derivable, checkFields_wf h]

theorem segs_requested {toks : List Tok} {n : Node} {args : List Path} (h : Requested toks n args) :
    ∀ p ∈ args, p.segs ≠ [] := by
  obtain ⟨ts, m, ⟨es, tr, h1, -, rfl, -⟩, -⟩ := h
  intro p hp
  obtain ⟨x, hx, he⟩ := List.mem_filterMap.mp hp
  cases x with
  | trait q => cases he; exact h1 _ hx
  | marker i => cases he

theorem segs_inferred {b : Bool} {n : Node} {args ts : List Path} (h : Inferred b n args ts) :
    ∀ p ∈ ts, p.segs ≠ [] := by
  rcases h with rfl | ⟨-, l, -, ty, -, rfl⟩
  · intro p hp; cases hp
  · intro p hp hs
    have := (List.mem_filter.mp hp).2
    simp only [decide_eq_true_eq] at this
    have he : spelled p = "" := by simp [spelled, hs]
    rw [he] at this
    exact absurd this.2 (by decide)

theorem derives_segs {b : Bool} {toks : List Tok} {n : Node} {e : GenEnum}
    (h : ∃ args ts, e.derives = args ++ ts ∧ Requested toks n args ∧ Inferred b n args ts) :
    ∀ p ∈ e.derives, p.segs ≠ [] := by
  obtain ⟨args, ts, h1, h2, h3⟩ := h
  intro p hp
  rw [h1] at hp
  exact (List.mem_append.mp hp).elim (segs_requested h2 p) (segs_inferred h3 p)

theorem provided {fs : Features} {e : GenEnum} (hd : ∀ p ∈ e.derives, p.segs ≠ []) {o : Derive.Output}
    (ho : expand fs e.data e.request = .ok o) : ∀ p ∈ e.derives,
      (Supported fs (spelling p) → ∃ i ∈ o.impls, spelling p ∈ i.names) ∧
      (¬ Supported fs (spelling p) → p ∈ o.derive) := by
  intro p hp
  have ht : IsTraits e.request e.derives := ⟨false, hd, rfl⟩
  refine ⟨C31_requested fs e.data _ _ o ht ho p hp, fun h => ?_⟩
  rw [C34 fs e.data _ _ o ht ho]
  exact List.mem_filter.mpr ⟨hp, by simpa using h⟩

theorem isArgs_unique {toks : List Tok} {a a' : List Path} {m m' : Option Ident} (h : IsArgs toks a m)
    (h' : IsArgs toks a' m') : a = a' := by
  have h1 := (parseArgs_iff toks a m).mpr h
  have h2 := (parseArgs_iff toks a' m').mpr h'
  rw [h1] at h2
  cases h2; rfl

variable {env : Env} {traits : List Path} {en : Ident} {m : String} {n out : Node}

/-- The generated enum of an accepted input without inner attributes. -/
theorem accepted_enum (h : Accepted env traits en m n out) (hs : Simple en m n) (hn : enums n = []) :
    ∀ e ∈ enums out, WellFormed e ∧ (∀ p ∈ e.derives, p.segs ≠ []) ∧ ∀ p ∈ traits, p ∈ e.derives := by
  obtain ⟨-, fuel, g, toks, marker, input, ha, -, -, hi, hrun⟩ := h
  intro e he
  have := C02_generated_enums env fuel g toks input n out (by
    rcases hi with h | h
    · exact .inr h.1
    · exact .inl h.1) hrun e he
  rw [hn] at this
  rcases this with h | ⟨hw, hd⟩
  · cases h
  refine ⟨hw, derives_segs hd, ?_⟩
  obtain ⟨args, ts, h1, ⟨ts', m', h2, h3⟩, -⟩ := hd
  intro p hp
  rcases h3 with rfl | ⟨a, hm, hp', -⟩
  · rw [h1, isArgs_unique h2 ha]
    exact List.mem_append_left _ hp
  · have := hs.inner a hm
    simp [Spec.named, hp'] at this

theorem declared_enum {x : Ident} (hx : x ∈ declared en out) : ∃ e ∈ enums out, e.name = en ∧ x ∈ e.variants.map (·.1) := by
  obtain ⟨e, he, h⟩ := List.mem_flatMap.mp hx
  split at h
  · exact ⟨e, he, ‹_›, h⟩
  · cases h

theorem wf_distinct {e : GenEnum} (h : WellFormed e) : Distinct e.data := by
  obtain ⟨-, k, -, -, hv⟩ := h
  simp only [Distinct, GenEnum.data, hv, List.map_map, Function.comp_def, List.map_id']
  exact nodup_variants k

theorem wf_variant {e : GenEnum} (h : WellFormed e) {x : Ident} (hx : x ∈ e.variants.map (·.1)) :
    (x, x) ∈ e.variants ∧ (x, [x]) ∈ e.data.variants := by
  obtain ⟨-, k, -, -, hv⟩ := h
  obtain ⟨y, hy, rfl⟩ := List.mem_map.mp hx
  have : y = (y.1, y.1) := by
    rw [hv] at hy
    obtain ⟨z, -, rfl⟩ := List.mem_map.mp hy
    rfl
  have h1 : (y.1, y.1) ∈ e.variants := by rw [← this]; exact hy
  exact ⟨h1, List.mem_map.mpr ⟨_, h1, rfl⟩⟩

theorem place_enum (k : Nat) (ds : List Path) (n : Node) :
    ⟨en, variantNames k, (variantNames k).map fun v => (v, v), ds⟩ ∈ enums (placeEnum (enumDecl en k ds) n) := by
  have h0 : (⟨en, variantNames k, (variantNames k).map fun v => (v, v), ds⟩ : GenEnum) ∈
      enums (enumDecl en k ds) := (enums_mk ..).mpr (.inl rfl)
  have hb (e : Node) : (⟨en, variantNames k, (variantNames k).map fun v => (v, v), ds⟩ : GenEnum) ∈
      enums (inBlock (enumDecl en k ds) e) := by
    unfold inBlock
    exact enums_sub List.mem_cons_self _ h0
  unfold placeEnum
  split
  · exact enums_sub List.mem_cons_self _ (hb _)
  · exact enums_sub List.mem_cons_self _ (hb _)
  · exact enums_sub List.mem_cons_self _ (enums_sub List.mem_cons_self _ h0)
  · exact hb _

/-- An accepted input without inner attributes does generate the enum. -/
theorem accepted_some (h : Accepted env traits en m n out) (hs : Simple en m n) :
    ∃ e ∈ enums out, e.name = en ∧ 2 ≤ e.variants.length := by
  obtain ⟨n', -, h2, rfl⟩ := h.treated hs
  refine ⟨_, place_enum _ _ _, rfl, ?_⟩
  simpa [variantNames] using h2

end Request

end AutoEnums
