import Verif.Spec.Anon
import Verif.Spec.Pads
import Verif.Props.C58

/-! # Lemmas: giving all enums the same name (for C74) -/

namespace AutoEnums

open Spec

namespace Anon

theorem enum_name (s : String) : anon.ident ("__Enum" ++ s) = "__Enum0" := by
  have : "__Enum".toList.isPrefixOf ("__Enum" ++ s).toList = true := by
    rw [List.isPrefixOf_iff_prefix, String.toList_append]
    exact List.prefix_append _ _
  simp only [anon, this, if_true]

theorem other {s : String} (h : "__Enum".toList.isPrefixOf s.toList = false) : anon.ident s = s := by
  simp only [anon, h, Bool.false_eq_true, if_false]

theorem harmless : anon.Harmless where
  labels _ _ h := h
  macros _ _ h := h
  knownMacros _ _ := rfl
  known x hx y := by
    have h1 : "__Enum".toList.isPrefixOf x.toList = false := by
      simp only [List.mem_cons, List.not_mem_nil, or_false] at hx
      rcases hx with rfl | rfl | rfl | rfl | rfl | rfl | rfl | rfl <;> decide
    constructor
    · intro h
      simp only [anon] at h
      split at h
      · subst h; exact absurd h1 (by decide)
      · exact h
    · rintro rfl; exact other h1
  vars := by decide
  variants n := by
    apply other
    rw [String.toList_append]
    show List.isPrefixOf ['_', '_', 'E', 'n', 'u', 'm'] ('_' :: '_' :: 'V' :: _) = false
    simp [List.isPrefixOf]
  written _ _ := rfl

theorem toks : ∀ l : List Tok, anon.toks l = l := by
  intro l
  induction l using Respelling.toks.induct with
  | case1 m l ih => rw [Respelling.toks, ih]; rfl
  | case2 t l h ih =>
    rw [Respelling.toks, ih]
    intro m l' h1 h2; exact h _ _ h1 h2
  | case3 => rfl

theorem attr (a : Attr) : anon.attr a = a := by
  unfold Respelling.attr
  split
  · rename_i h2; obtain ⟨p, f⟩ := a; dsimp only at h2; subst h2; rw [toks]
  · rfl

theorem attrs (as : List Attr) : anon.attrs as = as := Rename.attrs_id attr rfl as

theorem err (e : Err) : anon.err e = e := by cases e <;> rfl

theorem errs (l : List Err) : l.map anon.err = l := by
  rw [show anon.err = id from funext err, List.map_id]

theorem macPath (p : Path) : anon.macPath p = p := by
  unfold Respelling.macPath
  split <;> rfl

theorem node_mk (k : Kind) (as : List Attr) (ks : List Node) :
    anon.node (.mk k as ks) = .mk (anon.kind k) as (anon.nodes ks) := by
  rw [Respelling.node, attrs]

theorem isStmt (k : Kind) : (anon.kind k).isStmt = k.isStmt := by cases k <;> rfl
theorem isBlockLike (k : Kind) : (anon.kind k).isBlockLike = k.isBlockLike := by cases k <;> rfl
theorem closes' (k : Kind) : closes (anon.kind k) = closes k := by cases k <;> rfl
theorem stillHere' (b : Bool) (k : Kind) : stillHere b (anon.kind k) = stillHere b k := by
  cases k <;> try rfl
  case eMacro p t => simp only [Respelling.kind, stillHere, macPath]

theorem still_anon : ∀ (n : Node) (b : Bool), still b (anon.node n) = still b n := by
  intro n
  induction n using Node.ind with
  | h k as ks ih =>
    intro b
    have hL : ∀ (l : List Node) (b : Bool), (∀ n ∈ l, n ∈ ks) → stillL b (anon.nodes l) = stillL b l := by
      intro l b hl
      induction l with
      | nil => rfl
      | cons a l ihl =>
        rw [Respelling.nodes, stillL, stillL, ih a (hl a (by simp)), ihl fun n hn => hl n (by simp [hn])]
    rw [node_mk, still, still, stillHere', closes', hL ks _ fun _ h => h]

theorem idle_anon (s : Node) : idleStmt (anon.node s) = idleStmt s := by
  unfold idleStmt
  rw [still_anon]
  obtain ⟨k, as, ks⟩ := s
  rw [node_mk]
  exact congrArg (· && _) (isStmt k)

theorem nodes_append (l m : List Node) : anon.nodes (l ++ m) = anon.nodes l ++ anon.nodes m := by
  simp [Rename.nodes_map]

theorem argOk_anon (k : Kind) (ks : List Node) : argOk (anon.kind k) (anon.nodes ks) = argOk k ks := by
  cases k <;> try rfl
  case eMacro p t => simp [Respelling.kind, argOk, Rename.nodes_map]

theorem pads : ∀ {n n' : Node} {ss : List Node}, Pads ss n n' → Pads (anon.nodes ss) (anon.node n) (anon.node n') := by
  intro n
  induction n using Node.ind with
  | h k as ks ih =>
    intro n' ss h
    have hL : ∀ (b : Bool) (ss l l' : List Node), (∀ n ∈ l, n ∈ ks) → PadsL b ss l l' →
        PadsL b (anon.nodes ss) (anon.nodes l) (anon.nodes l') := by
      intro b ss l l' hm hl
      induction l' generalizing ss l with
      | nil => cases hl; exact .nil
      | cons a l' ihl =>
        cases hl with
        | cons hn hl =>
          rw [nodes_append]
          exact .cons (ih _ (hm _ (by simp)) hn) (ihl _ _ (fun n hn => hm n (by simp [hn])) hl)
        | add hs hl =>
          have := ihl _ _ hm hl
          simp only [Respelling.nodes] at this ⊢
          exact .add (by rw [idle_anon]; exact hs) this
    cases h with
    | same => exact .same
    | mk ho h =>
      rw [node_mk, node_mk]
      exact .mk (by rw [argOk_anon]; exact ho) (by rw [isBlockLike]; exact hL _ _ _ _ (fun _ h => h) h)

theorem padsInput {ss : List Node} {i i' : Input} (h : PadsInput ss i i') :
    PadsInput (anon.nodes ss) (anon.input i) (anon.input i') := by
  cases h with
  | stmt h => exact .stmt (pads h)
  | expr h => exact .expr (pads h)

/-! ## Operands -/

theorem lastName_anon (p : Path) {x : Ident} (hx : x ∈ ["std", "core", "option", "Option", "None", "result", "Result", "Err"]) :
    lastName (anon.path p) = some x ↔ lastName p = some x := by
  simp only [lastName, Respelling.path, List.getLast?_map, Option.map_map]
  cases p.segs.getLast? with
  | none => simp
  | some s => simpa using harmless.known x hx s.ident

theorem notErr_anon (n : Node) : notErr (anon.node n) = notErr n := by
  obtain ⟨k, as, ks⟩ := n
  rw [node_mk]
  cases k <;> try rfl
  case ePath q p => simp only [Respelling.kind, notErr, ne_eq, lastName_anon p (x := "Err") (by simp)]

theorem stillL_anon (l : List Node) (b : Bool) : stillL b (anon.nodes l) = stillL b l := by
  induction l with
  | nil => rfl
  | cons a l ih => rw [Respelling.nodes, stillL, stillL, still_anon, ih]

theorem operand_anon : ∀ n : Node, operand (anon.node n) = operand n := by
  intro n
  induction n using Node.ind with
  | h k as ks ih =>
    rw [node_mk]
    cases k <;> try (simp only [Respelling.kind, operand, stillL_anon]; done)
    case eMethodCall m =>
      cases ks with
      | nil => rfl
      | cons r args => simp only [Respelling.kind, Respelling.nodes, operand, stillL_anon, ih r (by simp)]
    case eParen =>
      match ks with
      | [] => rfl
      | [e] => simp only [Respelling.kind, Respelling.nodes, operand, ih e (by simp)]
      | _ :: _ :: _ => rfl
    case ePath q p =>
      simp only [Respelling.kind, operand, stillL_anon, ne_eq, lastName_anon p (x := "Err") (by simp),
        lastName_anon p (x := "None") (by simp)]
    case eCall =>
      cases ks with
      | nil => rfl
      | cons r args =>
        have := stillL_anon (r :: args) false
        simp only [Respelling.nodes] at this
        simp only [Respelling.kind, Respelling.nodes, operand, this, notErr_anon]

theorem depth_anon : ∀ n : Node, depth (anon.node n) = depth n := by
  intro n
  induction n using Node.ind with
  | h k as ks ih =>
    have hL : ∀ l : List Node, (∀ n ∈ l, n ∈ ks) → depthL (anon.nodes l) = depthL l := by
      intro l hl
      induction l with
      | nil => rfl
      | cons a l ihl =>
        rw [Respelling.nodes, depthL, depthL, ih a (hl a (by simp)), ihl fun n hn => hl n (by simp [hn])]
    rw [node_mk, depth, depth, hL ks fun _ h => h]

theorem fill_anon (σ : String → Node) : ∀ n : Node,
    anon.node (fill σ n) = fill (fun s => anon.node (σ s)) (anon.node n) := by
  intro n
  induction n using Node.ind with
  | h k as ks ih =>
    have hL : ∀ l : List Node, (∀ n ∈ l, n ∈ ks) →
        anon.nodes (fillL σ l) = fillL (fun s => anon.node (σ s)) (anon.nodes l) := by
      intro l hl
      induction l with
      | nil => rfl
      | cons a l ihl =>
        rw [fillL, Respelling.nodes, Respelling.nodes, fillL, ih a (hl a (by simp)), ihl fun n hn => hl n (by simp [hn])]
    have hL := hL ks fun _ h => h
    rw [node_mk]
    cases k <;> try (simp only [fill, node_mk, hL, Respelling.kind]; done)
    case eLit t =>
      cases ks with
      | nil =>
        simp only [fill, Respelling.kind, Respelling.nodes]
        have : anon.text t = t := rfl
        rw [this]
        generalize σ t = m
        obtain ⟨k, as', ks'⟩ := m
        rw [node_mk, node_mk]
        rfl
      | cons a l =>
        simp only [Respelling.nodes] at hL
        simp only [fill, node_mk, Respelling.kind, Respelling.nodes, hL]

theorem fillInput_anon (σ : String → Node) (i : Input) :
    anon.input (fillInput σ i) = fillInput (fun s => anon.node (σ s)) (anon.input i) := by
  cases i with
  | stmt n => exact congrArg Input.stmt (fill_anon σ n)
  | expr n => exact congrArg Input.expr (fill_anon σ n)
  | invalid => rfl

/-! ## Outputs -/

/-- With the same name for all enums, the outcome is that for a hash that is always 0. -/
theorem output (env : Env) (fuel h : Nat) (toks' : List Tok) (input : Input) :
    anon.output (autoEnum env fuel h toks' input) =
      autoEnum ⟨fun _ => 0, env.typeAnalysis⟩ fuel 0 toks' (anon.input input) := by
  have h0 : "__Enum0" = "__Enum" ++ toString 0 := by decide +kernel
  have := C58 anon harmless env ⟨fun _ => 0, env.typeAnalysis⟩ rfl (fun n => (enum_name _).trans h0) h 0
    ((enum_name _).trans h0) fuel toks' input
  rw [toks] at this
  exact this.symm

theorem not_panicked {o : Output} (h : ∀ ps, o ≠ .panicked ps) : ∀ ps, anon.output o ≠ .panicked ps := by
  intro ps he
  cases o with
  | panicked ps => exact h ps rfl
  | code n => cases he
  | errors l => cases he

end Anon

end AutoEnums
