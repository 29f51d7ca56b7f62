import Verif.Props.C02

/-! # C01: each declared variant is constructed exactly once -/

namespace AutoEnums

open Spec

/-- C01: for every enum name and variant name, a successful expansion adds as many uses of the
constructor as it adds declarations of the variant. -/
theorem C01_balance (env : Env) (fuel h : Nat) (toks : List Tok) (input : Input)
    (n out : Node) (hin : input = .stmt n ∨ input = .expr n)
    (hrun : autoEnum env fuel h toks input = .code out) (en vn : Ident) :
    uses en vn out + decls en vn n = uses en vn n + decls en vn out := by
  obtain ⟨cx, m, cx', hnew, hm, ht, he, _⟩ := autoEnum_trace hrun
  have : m = n := by
    rcases hin with rfl | rfl <;> rcases hm with hm | hm <;> first | cases hm; rfl | cases hm
  subst this
  have := ht.balance he en vn
  rw [pending_zero (new_fresh hnew).variants] at this
  simpa using this

theorem decls_eq_enums (en vn : Ident) (n : Node) : decls en vn n =
    ((enums n).map fun e => if e.name = en then (e.variants.map (·.1)).count vn else 0).sum := by
  unfold decls weigh enums
  induction labels n with
  | nil => rfl
  | cons l ls ih =>
    simp only [List.map_cons, List.sum_cons, ih, List.filterMap_cons]
    obtain ⟨k, as⟩ := l
    cases k <;> try simp [enumOf, isDecl]
    rename_i i
    cases i <;> simp [enumOf, isDecl]

theorem sum_single {en vn : Ident} : ∀ {l : List GenEnum}, (l.map (·.name)).Nodup → ∀ e ∈ l,
    e.name = en → (l.map fun e => if e.name = en then (e.variants.map (·.1)).count vn else 0).sum =
      (e.variants.map (·.1)).count vn
  | [], _, e, he, _ => by cases he
  | a :: l, hd, e, he, hn => by
    simp only [List.map_cons, List.nodup_cons] at hd
    simp only [List.map_cons, List.sum_cons]
    cases he with
    | head =>
      have hz : ∀ l : List GenEnum, a.name ∉ l.map (·.name) →
          (l.map fun e => if e.name = en then (e.variants.map (·.1)).count vn else 0).sum = 0 := by
        intro l
        induction l with
        | nil => simp
        | cons b l ih =>
          intro h
          simp only [List.map_cons, List.mem_cons, not_or] at h
          have : ¬ b.name = en := by rw [← hn]; exact fun h' => h.1 h'.symm
          simp [this]
          simpa using ih (by simpa using h.2)
      rw [hz l hd.1]
      simp [hn]
    | tail _ he =>
      have : ¬ a.name = en := by
        intro h'
        exact hd.1 (List.mem_map.mpr ⟨e, he, hn.trans h'.symm⟩)
      simp only [this, if_false, Nat.zero_add]
      exact sum_single hd.2 e he hn

/-- C01: if the input contains no generated enum, the names of the enums of the output are distinct
(no hash collision) and the input does not mention them, then every declared variant is constructed
exactly once. -/
theorem C01_exactly_once (env : Env) (fuel h : Nat) (toks : List Tok) (input : Input)
    (n out : Node) (hin : input = .stmt n ∨ input = .expr n)
    (hrun : autoEnum env fuel h toks input = .code out)
    (hnone : enums n = []) (hdist : ((enums out).map (·.name)).Nodup)
    (hfresh : ∀ e ∈ enums out, ∀ vn, uses e.name vn n = 0) :
    ∀ e ∈ enums out, ∀ v ∈ e.variants, uses e.name v.1 out = 1 := by
  intro e he v hv
  have hb := C01_balance env fuel h toks input n out hin hrun e.name v.1
  rw [hfresh e he, decls_eq_enums _ _ n, hnone, decls_eq_enums, sum_single hdist e he rfl] at hb
  rcases C02_generated_enums env fuel h toks input n out hin hrun e he with h' | ⟨⟨_, k, _, _, hk⟩, _⟩
  · rw [hnone] at h'; cases h'
  · rw [hk] at hv
    obtain ⟨x, hx, rfl⟩ := List.mem_map.mp hv
    rw [hk] at hb
    simp only [List.map_map, Function.comp_def, List.map_id'] at hb
    have hn : (variantNames k).Nodup := nodup_variants k
    rw [List.nodup_iff_count.mp hn |> fun f => Nat.le_antisymm (f x) (List.one_le_count_iff.mpr hx)] at hb
    simpa using hb

/-- C01: no undeclared variant is constructed: every constructor use that the input does not contain
refers to a variant declared in the output. -/
theorem C01_declared (env : Env) (fuel h : Nat) (toks : List Tok) (input : Input)
    (n out : Node) (hin : input = .stmt n ∨ input = .expr n)
    (hrun : autoEnum env fuel h toks input = .code out) (en vn : Ident)
    (hnew : uses en vn n < uses en vn out) :
    ∃ e ∈ enums out, e.name = en ∧ vn ∈ e.variants.map (·.1) := by
  have hb := C01_balance env fuel h toks input n out hin hrun en vn
  have hpos : 0 < decls en vn out := by omega
  rw [decls_eq_enums] at hpos
  revert hpos
  induction enums out with
  | nil => simp
  | cons a l ih =>
    intro hpos
    simp only [List.map_cons, List.sum_cons] at hpos
    by_cases h1 : a.name = en ∧ vn ∈ a.variants.map (·.1)
    · exact ⟨a, by simp, h1⟩
    · have h2 : (if a.name = en then (a.variants.map (·.1)).count vn else 0) = 0 := by
        split
        · rename_i hn
          exact List.count_eq_zero.mpr fun h' => h1 ⟨hn, h'⟩
        · rfl
      rw [h2, Nat.zero_add] at hpos
      obtain ⟨e, he, h⟩ := ih hpos
      exact ⟨e, by simp [he], h⟩

/-- All hypotheses of `C01_exactly_once` hold for a `let` with an inner attribute. -/
example : autoEnum Ex.env 20 5 Ex.iterator (.stmt Ex.letIn) = .code Ex.letOut ∧
    enums Ex.letIn = [] ∧ ((enums Ex.letOut).map (·.name)).Nodup ∧
    (∀ e ∈ enums Ex.letOut, ∀ vn, uses e.name vn Ex.letIn = 0) := by
  refine ⟨Ex.let_run, by decide +kernel, by decide +kernel, ?_⟩
  intro e he vn
  simp [uses, weigh, Ex.letIn, Ex.arm, Ex.lit, Ex.var, Ex.marker, pathE, exprBlock, tailS, isUse,
    variantPath, Path.ofIdents]

end AutoEnums
