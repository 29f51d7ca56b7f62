import Verif.Spec.Runtime

/-! # Facts about generated methods -/

namespace AutoEnums

open Spec Derive

variable {α μ : Type}

/-! ## Facts about the table -/

theorem table_params : ∀ i ∈ table, ∀ s ∈ sigs i, s.params.Nodup ∧ "x" ∉ s.params := by
  decide +kernel

theorem table_methods : ∀ i ∈ table, ((sigs i).map (·.name)).Nodup := by decide +kernel

/-- Hand-written methods are `Error::source` or call the method of the same name with their own
parameters in order, through a pinned reference. -/
theorem table_manual : ∀ i ∈ table, ∀ m ∈ i.manual,
    (i.trait = "::std::error::Error" ∧ m.sig = ⟨"source", .ref, []⟩ ∧ m.body = .some) ∨
    (m.sig.recv = .pin ∧ m.body = .call m.sig.name m.sig.params) := by decide +kernel

theorem table_forwarded : ∀ i ∈ table, ∀ s ∈ i.forwarded,
    s.recv ≠ .pin ∧ (i.trait, s.name) ≠ ("::std::error::Error", "source") := by decide +kernel

/-! ## Evaluation -/

theorem find_arm {vs : List (String × List String)} (hn : (vs.map (·.1)).Nodup)
    {v : String} {ty : List String} (h : (v, ty) ∈ vs) (f : String × List String → Rhs) :
    (vs.map fun v => Arm.mk v.1 (f v)).find? (fun a => a.variant == v) =
      some ⟨v, f (v, ty)⟩ := by
  induction vs with
  | nil => simp at h
  | cons w vs ih =>
    rw [List.map_cons, List.nodup_cons] at hn
    rw [List.map_cons, List.find?_cons]
    rcases List.mem_cons.mp h with rfl | h
    · simp
    · have : w.1 ≠ v := by
        rintro rfl; exact hn.1 (List.mem_map.mpr ⟨_, h, rfl⟩)
      have : (w.1 == v) = false := by simpa using this
      simp only [this]
      exact ih hn.2 h

theorem lookup_zip : ∀ {ps : List String} {args : List (Val α)}, ps.Nodup →
    ∀ q ∈ ps.zip args, (ps.zip args).lookup q.1 = some q.2
  | [], _, _, q, h => by simp at h
  | _ :: _, [], _, q, h => by simp at h
  | p :: ps, a :: args, hn, q, h => by
    rw [List.zip_cons_cons] at h ⊢
    rw [List.nodup_cons] at hn
    rcases List.mem_cons.mp h with rfl | h'
    · simp
    · have : q.1 ≠ p := fun he => hn.1 (he ▸ (List.of_mem_zip h').1)
      have : (q.1 == p) = false := by simpa using this
      rw [List.lookup_cons, this]
      exact lookup_zip hn.2 q h'

theorem mapM_params (W : World α μ) (env : List (String × Val α)) :
    ∀ {ps : List String} {args : List (Val α)}, args.length = ps.length →
    (∀ q ∈ ps.zip args, env.lookup q.1 = some q.2) →
    (ps.map Atom.var).mapM (evalAtom W env) = some args
  | [], [], _, _ => rfl
  | p :: ps, a :: args, hl, h => by
    rw [List.map_cons, List.mapM_cons, evalAtom, h (p, a) (by simp),
      mapM_params W env (by simpa using hl) fun q hq => h q (by simp [hq])]
    rfl
  | [], _ :: _, hl, _ => by simp at hl
  | _ :: _, [], hl, _ => by simp at hl

/-- The arguments of a forwarding call. -/
theorem eval_args (W : World α μ) {s : Sig} (hp : s.params.Nodup ∧ "x" ∉ s.params)
    {args : List (Val α)} (hl : args.length = s.params.length) (x : Val α) (at_ : Atom) (y : Val α)
    (hy : evalAtom W (("x", x) :: s.params.zip args) at_ = some y) :
    (at_ :: s.params.map Atom.var).mapM (evalAtom W (("x", x) :: s.params.zip args)) =
      some (y :: args) := by
  rw [List.mapM_cons, hy, mapM_params W _ hl]
  · rfl
  · intro q hq
    have : q.1 ≠ "x" := by rintro h; exact hp.2 (h ▸ (List.of_mem_zip hq).1)
    have : (q.1 == "x") = false := by simpa using this
    rw [List.lookup_cons, this]
    exact lookup_zip hp.1 q hq

theorem find_name {l : List Method} (hn : (l.map (·.name)).Nodup) {m : Method} (hm : m ∈ l) :
    l.find? (fun x => x.name == m.name) = some m := by
  induction l with
  | nil => simp at hm
  | cons a l ih =>
    rw [List.map_cons, List.nodup_cons] at hn
    rw [List.find?_cons]
    rcases List.mem_cons.mp hm with rfl | hm
    · simp
    · have : a.name ≠ m.name := by
        intro h; exact hn.1 (h ▸ List.mem_map.mpr ⟨m, hm, rfl⟩)
      have : (a.name == m.name) = false := by simpa using this
      simp only [this]
      exact ih hn.2 hm

theorem methods_names (d : Data) (i : Impl) :
    (methods d i).map (·.name) = (sigs i).map (·.name) := by
  simp [methods, sigs, genForwarded, genManual, List.map_append, List.map_map, Function.comp_def]

/-- A forwarded method. -/
theorem invoke_forwarded (W : World α μ) {d : Data} (hd : Distinct d) {i : Impl}
    (hi : i ∈ table) {s : Sig} (hs : s ∈ i.forwarded) {self : Val α} {args : List (Val α)}
    (hl : args.length = s.params.length) {st : Store μ} {v : String} {ty : List String} {x : Val α}
    (hv : (v, ty) ∈ d.variants) (hx : scrutinee W st.tags s.recv self = some (v, x)) :
    invoke W (genForwarded d i s) self args st =
      some (⟨st.tags, (W.call ty i.trait s.name (x :: args) st.mem).1⟩,
        (W.call ty i.trait s.name (x :: args) st.mem).2) := by
  have hp := table_params i hi s (List.mem_append_left _ hs)
  unfold invoke
  simp only [genForwarded, hx, hl, if_true]
  rw [find_arm hd hv fun v => .call v.2 i.trait s.name (.var "x" :: s.params.map .var)]
  simp only [evalRhs]
  rw [eval_args W hp hl x (.var "x") x (by simp [evalAtom])]
  rfl

/-- A hand-written method other than `Error::source`. -/
theorem invoke_manual (W : World α μ) {d : Data} (hd : Distinct d) {i : Impl}
    (hi : i ∈ table) {m : Manual} (hm : m ∈ i.manual)
    (hb : m.body = .call m.sig.name m.sig.params) {self : Val α} {args : List (Val α)}
    (hl : args.length = m.sig.params.length) {st : Store μ} {v : String} {ty : List String}
    {x : Val α} (hv : (v, ty) ∈ d.variants)
    (hx : scrutinee W st.tags m.sig.recv self = some (v, x)) :
    invoke W (genManual d i m) self args st =
      some (⟨st.tags, (W.call ty i.trait m.sig.name (.pin x :: args) st.mem).1⟩,
        (W.call ty i.trait m.sig.name (.pin x :: args) st.mem).2) := by
  have hp := table_params i hi m.sig (List.mem_append_right _ (List.mem_map.mpr ⟨m, hm, rfl⟩))
  unfold invoke
  simp only [genManual, hx, hl, if_true, hb]
  rw [find_arm hd hv fun v => .call v.2 i.trait m.sig.name (.pinned "x" :: m.sig.params.map .var)]
  simp only [evalRhs]
  rw [eval_args W hp hl x (.pinned "x") (.pin x) (by simp [evalAtom])]
  rfl

theorem evalRhs_tags (W : World α μ) (self : Val α) (env : List (String × Val α)) :
    ∀ (e : Rhs) (st st' : Store μ) (r : Val α), (∀ e' v, e ≠ .setVariant e' v) →
    (∀ e', (e = .some e' ∨ ∃ v, e = .map e' v ∨ e = .mapErr e' v) →
      evalRhs W self env st e' = none ∨ ∃ r', evalRhs W self env st e' = some (st, r')) →
    evalRhs W self env st e = some (st', r) → st'.tags = st.tags := by
  intro e st st' r hs hsub h
  cases e with
  | var x =>
    rw [evalRhs] at h
    cases hl : env.lookup x with
    | none => rw [hl] at h; cases h
    | some y => rw [hl] at h; cases h; rfl
  | call ty t m args =>
    rw [evalRhs] at h
    cases hl : args.mapM (evalAtom W env) with
    | none => rw [hl] at h; cases h
    | some y => rw [hl] at h; cases h; rfl
  | some e' =>
    rw [evalRhs] at h
    rcases hsub e' (.inl rfl) with hn | ⟨r', hn⟩ <;> rw [hn] at h <;> cases h
    rfl
  | map e' v =>
    rw [evalRhs] at h
    rcases hsub e' (.inr ⟨v, .inl rfl⟩) with hn | ⟨r', hn⟩ <;> rw [hn] at h
    · cases h
    · cases r' <;> cases h <;> rfl
  | mapErr e' v =>
    rw [evalRhs] at h
    rcases hsub e' (.inr ⟨v, .inr rfl⟩) with hn | ⟨r', hn⟩ <;> rw [hn] at h
    · cases h
    · cases r' <;> cases h <;> rfl
  | setVariant e' v => exact absurd rfl (hs e' v)

theorem invoke_source (W : World α μ) {d : Data} (hd : Distinct d) {i : Impl} (hi : i ∈ table)
    (ht : i.trait = "::std::error::Error") {st : Store μ} {a : Nat} {v : String} {ty : List String}
    (hv : (v, ty) ∈ d.variants) (ha : st.tags a = some v) :
    ∃ m, sourceOf d i = some m ∧
      invoke W m (.ref a) [] st = some (st, .some (.ref (W.field a v))) := by
  have key : ∀ i ∈ table, i.trait = "::std::error::Error" →
      i.manual = [⟨⟨"source", .ref, []⟩, .some⟩] := by decide +kernel
  have hman := key i hi ht
  have hm : genManual d i ⟨⟨"source", .ref, []⟩, .some⟩ ∈ methods d i := by
    refine List.mem_append_right _ ?_
    rw [hman]
    simp
  have hn : ((methods d i).map (·.name)).Nodup := by
    rw [methods_names]; exact table_methods i hi
  refine ⟨_, find_name hn hm, ?_⟩
  unfold invoke
  simp only [genManual, List.length_nil, if_true, scrutinee, ha, Option.map_some]
  rw [find_arm hd hv fun _ => .some (.var "x")]
  simp [evalRhs]


end AutoEnums
