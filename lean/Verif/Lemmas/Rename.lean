import Verif.Spec.Rename

/-! # Lemmas: the expansion does not depend on spelling -/

set_option linter.unusedSectionVars false
set_option linter.unusedSimpArgs false

namespace AutoEnums

open Spec

namespace Rename

variable {ρ : Respelling} {A T : List Path → List Path}

/-- The context, with the name of the enum changed, and other requested and inferred traits. -/
def cx (ρ : Respelling) (A T : List Path → List Path) (c : Cx) : Cx :=
  { c with
    ident := ρ.ident c.ident, marker := ρ.mac c.marker, markers := c.markers.map ρ.mac, errs := c.errs.map ρ.err,
    args := A c.args, traits := T c.traits, log := c.log.map ρ.err }

def pair (ρ : Respelling) (A T : List Path → List Path) (r : Cx × Node) : Cx × Node := (cx ρ A T r.1, ρ.node r.2)
def pairL (ρ : Respelling) (A T : List Path → List Path) (r : Cx × List Node) : Cx × List Node :=
  (cx ρ A T r.1, ρ.nodes r.2)

@[simp] theorem node_mk (k : Kind) (as : List Attr) (ks : List Node) :
    ρ.node (.mk k as ks) = .mk (ρ.kind k) (ρ.attrs as) (ρ.nodes ks) := by rw [Respelling.node]
@[simp] theorem nodes_nil : ρ.nodes [] = [] := by rw [Respelling.nodes]
@[simp] theorem nodes_cons (n : Node) (ns : List Node) : ρ.nodes (n :: ns) = ρ.node n :: ρ.nodes ns := by
  rw [Respelling.nodes]
theorem nodes_map (l : List Node) : ρ.nodes l = l.map ρ.node := by
  induction l with
  | nil => rfl
  | cons a l ih => rw [nodes_cons, ih]; rfl
@[simp] theorem nodes_length (l : List Node) : (ρ.nodes l).length = l.length := by simp [nodes_map]
@[simp] theorem nodes_isEmpty (l : List Node) : (ρ.nodes l).isEmpty = l.isEmpty := by simp [nodes_map]

@[simp] theorem isExpr (k : Kind) : (ρ.kind k).isExpr = k.isExpr := by cases k <;> rfl
@[simp] theorem isStmt (k : Kind) : (ρ.kind k).isStmt = k.isStmt := by cases k <;> rfl
@[simp] theorem isOpaque (k : Kind) : (ρ.kind k).isOpaque = k.isOpaque := by cases k <;> rfl
@[simp] theorem hasAttrs (k : Kind) : (ρ.kind k).hasAttrs = k.hasAttrs := by cases k <;> rfl
@[simp] theorem kind_node (n : Node) : (ρ.node n).kind = ρ.kind n.kind := by cases n; rw [node_mk]; rfl
@[simp] theorem kids_node (n : Node) : (ρ.node n).kids = ρ.nodes n.kids := by cases n; rw [node_mk]; rfl
@[simp] theorem rawAttrs_node (n : Node) : (ρ.node n).rawAttrs = ρ.attrs n.rawAttrs := by
  cases n; rw [node_mk]; rfl

theorem attr_path (a : Attr) : (ρ.attr a).path = a.path := by
  unfold Respelling.attr
  split <;> rfl
@[simp] theorem attr_is (a : Attr) (s : String) : (ρ.attr a).is s = a.is s := by rw [Attr.is, Attr.is, attr_path]
@[simp] theorem attr_pathOnly (a : Attr) : ((ρ.attr a).form == .path) = (a.form == .path) := by
  unfold Respelling.attr
  split
  · rename_i hf; rw [hf]; rfl
  · rfl
theorem attr_form {a : Attr} (ha : a.is NAME = true) :
    (ρ.attr a).form = match a.form with | .list l => .list (ρ.toks l) | f => f := by
  unfold Respelling.attr
  have : a.path.isIdent "auto_enum" = true := ha
  cases hf : a.form <;> simp [this, hf]
theorem attr_ours (a : Attr) : Respelling.ours (ρ.attr a) = Respelling.ours a := by
  rw [Respelling.ours, Respelling.ours, attr_path]
@[simp] theorem attrs_nil : ρ.attrs [] = [] := rfl
theorem attrs_cons (a : Attr) (as : List Attr) : ρ.attrs (a :: as) =
    (if Respelling.ours a then [ρ.attr a] else (ρ.other a).filter fun b => !Respelling.ours b) ++ ρ.attrs as := by
  rw [Respelling.attrs, List.flatMap_cons]; rfl

/-- If every attribute stays, so do all of a node. -/
theorem attrs_id (h1 : ∀ a, ρ.attr a = a) (h2 : ρ.other = fun a => [a]) (as : List Attr) : ρ.attrs as = as := by
  induction as with
  | nil => rfl
  | cons a as ih =>
    rw [attrs_cons, ih, h1, h2]
    cases ho : Respelling.ours a <;> simp [ho]

/-- The names of attributes that the macro looks for. -/
def Known (s : String) : Prop := s ∈ ["auto_enum", "never", "nested", "rec"]
@[simp] theorem known_name : Known NAME := by unfold Known; decide
@[simp] theorem known_never : Known NEVER := by unfold Known; decide
@[simp] theorem known_nested : Known NESTED := by unfold Known; decide
@[simp] theorem known_rec : Known "rec" := by unfold Known; decide

theorem ours_of {a : Attr} {s : String} (hs : Known s) (h : a.is s = true) : Respelling.ours a = true :=
  List.any_eq_true.mpr ⟨s, hs, h⟩
theorem not_is {a : Attr} {s : String} (hs : Known s) (h : Respelling.ours a = false) : a.is s = false := by
  cases hi : a.is s with
  | false => rfl
  | true => rw [ours_of hs hi] at h; cases h

@[simp] theorem anyAttr_map (as : List Attr) {s : String} (hs : Known s) : anyAttr (ρ.attrs as) s = anyAttr as s := by
  induction as with
  | nil => rfl
  | cons a as ih =>
    rw [attrs_cons]
    simp only [AutoEnums.anyAttr, List.any_append, List.any_cons] at ih ⊢
    rw [ih]
    congr 1
    split
    · simp
    · rename_i ho
      rw [not_is hs (by simpa using ho), List.any_eq_false]
      intro b hb
      rw [not_is hs (by simpa using (List.mem_filter.mp hb).2)]
      simp
@[simp] theorem anyEmptyAttr_map (as : List Attr) {s : String} (hs : Known s) :
    anyEmptyAttr (ρ.attrs as) s = anyEmptyAttr as s := by
  induction as with
  | nil => rfl
  | cons a as ih =>
    rw [attrs_cons]
    simp only [AutoEnums.anyEmptyAttr, List.any_append, List.any_cons, Attr.isEmpty] at ih ⊢
    rw [ih]
    congr 1
    split
    · simp
    · rename_i ho
      rw [not_is hs (by simpa using ho), Bool.false_and, List.any_eq_false]
      intro b hb
      rw [not_is hs (by simpa using (List.mem_filter.mp hb).2)]
      simp
theorem findRemove_skip {s : String} (hs : Known s) (l as : List Attr) (hl : ∀ b ∈ l, Respelling.ours b = false) :
    findRemove (·.is s) (l ++ as) = (findRemove (·.is s) as).map fun r => (r.1, l ++ r.2) := by
  induction l with
  | nil => rw [List.nil_append]; cases findRemove (·.is s) as <;> rfl
  | cons b l ih =>
    rw [List.cons_append, findRemove, not_is hs (hl b (by simp)), ih fun c hc => hl c (by simp [hc])]
    cases findRemove (·.is s) as <;> rfl
theorem findRemove_map {s : String} (hs : Known s) (as : List Attr) : findRemove (·.is s) (ρ.attrs as) =
    (findRemove (·.is s) as).map fun r => (ρ.attr r.1, ρ.attrs r.2) := by
  induction as with
  | nil => rfl
  | cons a as ih =>
    rw [attrs_cons]
    by_cases ho : Respelling.ours a = true
    · simp only [ho, if_true, List.singleton_append, findRemove, attr_is, ih]
      split
      · rfl
      · cases findRemove (·.is s) as with
        | none => rfl
        | some r => simp [attrs_cons, ho]
    · have ho' : Respelling.ours a = false := by simpa using ho
      rw [if_neg ho, findRemove_skip hs _ _ fun b hb => by simpa using (List.mem_filter.mp hb).2, ih, findRemove,
        not_is hs ho']
      cases findRemove (·.is s) as with
      | none => rfl
      | some r => simp [attrs_cons, ho]
theorem findRemove_is {s : String} {as : List Attr} {r : Attr × List Attr}
    (h : findRemove (·.is s) as = some r) : r.1.is s = true := by
  induction as generalizing r with
  | nil => simp [findRemove] at h
  | cons a as ih =>
    simp only [findRemove] at h
    split at h
    · cases h; assumption
    · split at h
      · rename_i b bs hr; cases h; exact ih (r := (b, bs)) hr
      · cases h
theorem findRemoveAttr_is {n m : Node} {s : String} {a : Attr} (h : n.findRemoveAttr s = some (a, m)) :
    a.is s = true := by
  obtain ⟨k, as, ks⟩ := n
  simp only [Node.findRemoveAttr] at h
  split at h
  · split at h
    · rename_i hr; cases h; exact findRemove_is hr
    · cases h
  · cases h

theorem attrs : ∀ n : Node, (ρ.node n).attrs = ρ.attrs n.attrs := by
  refine Node.ind ?_
  intro k as ks ih
  rw [node_mk]
  by_cases h : ∃ semi e, k = .sExpr semi ∧ ks = [e]
  · obtain ⟨semi, e, rfl, rfl⟩ := h
    simp only [Respelling.kind, nodes_cons, nodes_nil, Node.attrs]
    exact ih e (by simp)
  · have h1 : (Node.mk k as ks).attrs = if k.hasAttrs then as else [] := by
      unfold Node.attrs
      split
      · rename_i heq; cases heq; exact absurd ⟨_, _, rfl, rfl⟩ h
      · rename_i heq; cases heq; rfl
    have h2 : (Node.mk (ρ.kind k) (ρ.attrs as) (ρ.nodes ks)).attrs =
        if (ρ.kind k).hasAttrs then ρ.attrs as else [] := by
      unfold Node.attrs
      split
      · rename_i semi _ e heq
        exfalso
        apply h
        cases k <;> simp only [Respelling.kind, Node.mk.injEq, reduceCtorEq, false_and] at heq
        match ks, heq with
        | [], heq => simp at heq
        | [a], _ => exact ⟨_, a, rfl, rfl⟩
        | _ :: _ :: _, heq => simp at heq
      · rename_i heq; cases heq; rfl
    rw [h1, h2, hasAttrs]
    split <;> rfl

@[simp] theorem anyAttr_node (n : Node) {s : String} (hs : Known s) : (ρ.node n).anyAttr s = n.anyAttr s := by
  simp [Node.anyAttr, attrs, hs]
@[simp] theorem anyEmptyAttr_node (n : Node) {s : String} (hs : Known s) : (ρ.node n).anyEmptyAttr s = n.anyEmptyAttr s := by
  simp [Node.anyEmptyAttr, attrs, hs]

theorem findRemoveAttr (n : Node) {s : String} (hs : Known s) :
    (ρ.node n).findRemoveAttr s = (n.findRemoveAttr s).map fun r => (ρ.attr r.1, ρ.node r.2) := by
  obtain ⟨k, as, ks⟩ := n
  simp only [node_mk, Node.findRemoveAttr, hasAttrs, findRemove_map hs]
  split
  · cases findRemove (·.is s) as with
    | none => rfl
    | some r => simp
  · rfl

@[simp] theorem tailS_node (e : Node) : ρ.node (tailS e) = tailS (ρ.node e) := by simp [tailS, Respelling.kind]
@[simp] theorem semiS_node (e : Node) : ρ.node (semiS e) = semiS (ρ.node e) := by simp [semiS, Respelling.kind]
@[simp] theorem exprBlock_node (ss : List Node) : ρ.node (exprBlock ss) = exprBlock (ρ.nodes ss) := by
  simp [exprBlock, Respelling.kind]
@[simp] theorem unitE_node : ρ.node unitE = unitE := by simp [unitE, Respelling.kind]
@[simp] theorem pathE_node (p : Path) : ρ.node (pathE p) = pathE (ρ.path p) := by
  simp [pathE, Respelling.kind]
@[simp] theorem exprCall_node (as : List Attr) (p : Path) (e : Node) :
    ρ.node (exprCall as p e) = exprCall (ρ.attrs as) (ρ.path p) (ρ.node e) := by
  simp [exprCall, Respelling.kind]
@[simp] theorem ofIdents_path (l : List Ident) : ρ.path (Path.ofIdents l) = Path.ofIdents (l.map ρ.ident) := by
  simp [Respelling.path, Path.ofIdents]

/-! ## Read-only traversals -/

theorem findNested_node : ∀ n : Node, findNested (ρ.node n) = findNested n := by
  refine Node.ind ?_
  intro k as ks ih
  have hL : findNestedL (ρ.nodes ks) = findNestedL ks := by
    have : ∀ l : List Node, (∀ n ∈ l, n ∈ ks) → findNestedL (ρ.nodes l) = findNestedL l := by
      intro l
      induction l with
      | nil => intro _; rfl
      | cons a l ihl =>
        intro h
        rw [nodes_cons, findNestedL, findNestedL, ih a (h a (by simp)), ihl fun n hn => h n (by simp [hn])]
    exact this ks fun _ h => h
  rw [node_mk]
  cases k <;> simp [findNested, Respelling.kind, Kind.isOpaque, Kind.isExpr, Kind.hasAttrs, hL]

theorem findNestedL_nodes (l : List Node) : findNestedL (ρ.nodes l) = findNestedL l := by
  induction l with
  | nil => rfl
  | cons a l ih => rw [nodes_cons, findNestedL, findNestedL, findNested_node, ih]

section

variable (h : ρ.Harmless)
include h

theorem pathEq_known {p : Path} {crates expected : List String}
    (hc : ∀ x ∈ crates, x ∈ ["std", "core", "option", "Option", "None", "result", "Result", "Err"])
    (he : ∀ x ∈ expected, x ∈ ["std", "core", "option", "Option", "None", "result", "Result", "Err"]) :
    pathEq (ρ.path p) crates expected = pathEq p crates expected := by
  have hmem : ∀ x ∈ ["std", "core", "option", "Option", "None", "result", "Result", "Err"], ∀ y,
      (ρ.ident y = x ↔ y = x) := h.known
  have hids : (ρ.path p).segs.map (·.ident) = (p.segs.map (·.ident)).map ρ.ident := by
    simp [Respelling.path, Function.comp_def]
  have hany : ∀ c, (crates.any (ρ.ident c == ·)) = crates.any (c == ·) := by
    intro c
    induction crates with
    | nil => rfl
    | cons a l ih =>
      simp only [List.any_cons]
      rw [ih fun x hx => hc x (by simp [hx])]
      congr 1
      rw [Bool.eq_iff_iff]
      simpa using hmem a (hc a (by simp)) c
  have hrest : ∀ l : List Ident, (l.map ρ.ident == expected) = (l == expected) := by
    intro l
    rw [Bool.eq_iff_iff]
    simp only [beq_iff_eq]
    clear hany
    induction expected generalizing l with
    | nil => simp
    | cons a e ih =>
      cases l with
      | nil => simp
      | cons b l =>
        simp only [List.map_cons, List.cons.injEq]
        rw [hmem a (he a (by simp)) b, ih fun x hx => he x (by simp [hx])]
  have hlast : ∀ c, (some (ρ.ident c) = expected.getLast? ↔ some c = expected.getLast?) := by
    intro c
    cases hl : expected.getLast? with
    | none => simp
    | some x => simpa using hmem x (he x (List.mem_of_getLast? hl)) c
  unfold pathEq
  simp only [hids, List.length_map]
  generalize p.segs.map (·.ident) = ids
  cases ids with
  | nil => rfl
  | cons c rest => simp only [List.map_cons, List.head?_cons, hlast, hany, hrest]

theorem isNoneOrErr_node (n : Node) : isNoneOrErr (ρ.node n) = isNoneOrErr n := by
  obtain ⟨k, as, ks⟩ := n
  have h1 : ∀ p, pathEq (ρ.path p) ["std", "core"] ["option", "Option", "None"] =
      pathEq p ["std", "core"] ["option", "Option", "None"] := fun p => pathEq_known h (by simp) (by simp)
  have h2 : ∀ p, pathEq (ρ.path p) ["std", "core"] ["result", "Result", "Err"] =
      pathEq p ["std", "core"] ["result", "Result", "Err"] := fun p => pathEq_known h (by simp) (by simp)
  rw [node_mk]
  cases k <;> try (simp [isNoneOrErr, Respelling.kind]; done)
  case ePath q p => cases q <;> simp [isNoneOrErr, Respelling.kind, h1]
  case eCall =>
    match ks with
    | [] => rfl
    | [.mk k1 as1 ks1] => cases k1 <;> simp [isNoneOrErr, Respelling.kind]
    | [.mk k1 as1 ks1, b] =>
      cases k1 <;> try (simp [isNoneOrErr, Respelling.kind]; done)
      case ePath q p => cases q <;> simp [isNoneOrErr, Respelling.kind, h2]
    | .mk k1 as1 ks1 :: b :: c :: l =>
      cases k1 <;> simp [isNoneOrErr, Respelling.kind]


/-! ## Macros -/

theorem macPath_isIdent (p : Path) (m : Ident) : (ρ.macPath p).isIdent (ρ.mac m) = p.isIdent m := by
  have hm : ∀ i, (ρ.mac i == ρ.mac m) = (i == m) := by
    intro i
    rw [Bool.eq_iff_iff]
    simp only [beq_iff_eq]
    exact ⟨h.macros i m, fun e => by rw [e]⟩
  unfold Respelling.macPath
  split
  · simp [Path.isIdent, hm]
  · rename_i hp
    obtain ⟨l, ss⟩ := p
    have hn : ∀ s, Path.isIdent ⟨l, ss⟩ s = false := by
      intro s
      unfold Path.isIdent
      split
      · rename_i i hl hs
        exact absurd (by cases hl; cases hs; rfl) (hp i)
      · rfl
    rw [hn, hn]

theorem pathEq_macPath (p : Path) (x : Ident) (hx : ρ.mac x = x) (crates : List String) :
    pathEq (ρ.macPath p) crates [x] = pathEq p crates [x] := by
  unfold Respelling.macPath
  split
  · rename_i i
    have : ρ.mac i = x ↔ i = x := ⟨fun e => h.macros i x (by rw [e, hx]), fun e => by rw [e, hx]⟩
    simp [pathEq, this]
  · rfl

theorem isMarkerExact_cx (c : Cx) (p : Path) : (cx ρ A T c).isMarkerExact (ρ.macPath p) = c.isMarkerExact p :=
  macPath_isIdent h p c.marker

theorem isMarker_cx (c : Cx) (p : Path) : (cx ρ A T c).isMarker (ρ.macPath p) = c.isMarker p := by
  unfold Cx.isMarker
  dsimp only
  rw [isMarkerExact_cx h]
  have : (cx ρ A T c).markers.any ((ρ.macPath p).isIdent ·) = c.markers.any (p.isIdent ·) := by
    simp [cx, Function.comp_def, macPath_isIdent h]
  rw [this]
  rfl

theorem isUnreachableMacro_cx (c : Cx) (p : Path) :
    isUnreachableMacro (cx ρ A T c) (ρ.macPath p) = isUnreachableMacro c p := by
  simp only [isUnreachableMacro, List.any_cons, List.any_nil, isMarker_cx h,
    pathEq_macPath h p "unreachable" (h.knownMacros _ (by simp)), pathEq_macPath h p "panic" (h.knownMacros _ (by simp))]

theorem marker_cx (c : Cx) : ((cx ρ A T c).marker != DEFAULT_MARKER) = (c.marker != DEFAULT_MARKER) := by
  have hd : ρ.mac DEFAULT_MARKER = DEFAULT_MARKER := h.knownMacros _ (by simp [DEFAULT_MARKER])
  have : (ρ.mac c.marker == DEFAULT_MARKER) = (c.marker == DEFAULT_MARKER) := by
    rw [Bool.eq_iff_iff]
    simp only [beq_iff_eq]
    exact ⟨fun e => h.macros _ _ (by rw [e, hd]), fun e => by rw [e, hd]⟩
  exact congrArg (!·) this

/-! ## `is_unreachable` -/

mutual
theorem isUnreachable_node (c : Cx) (n : Node) : isUnreachable (cx ρ A T c) (ρ.node n) = isUnreachable c n := by
  obtain ⟨k, as, ks⟩ := n
  rw [node_mk, isUnreachable.eq_def (cx ρ A T c), isUnreachable.eq_def c]
  dsimp only
  rw [hasAttrs, anyEmptyAttr_map as known_never, anyAttr_map as known_name]
  generalize (k.hasAttrs && (anyEmptyAttr as NEVER || anyAttr as NAME)) = b
  refine congrArg (b || ·) ?_
  cases k <;> try rfl
  case eBlock l => exact isUnreachableLast_nodes c ks
  case eMacro p t => exact isUnreachableMacro_cx h c p
  case eUnsafe => exact isUnreachableLast_nodes c ks
  case eMatch =>
    match ks with
    | [] => rfl
    | s :: arms => simp only [nodes_cons]; exact isUnreachableArms_nodes c arms
  case eTry =>
    match ks with
    | [] => rfl
    | [e] => simp only [nodes_cons, nodes_nil]; exact isNoneOrErr_node h e
    | _ :: _ :: _ => rfl
  case eMethodCall m =>
    match ks with
    | [] => rfl
    | r :: _ => simp only [nodes_cons]; exact isUnreachable_node c r
  case eParen =>
    match ks with
    | [] => rfl
    | [e] => simp only [nodes_cons, nodes_nil]; exact isUnreachable_node c e
    | _ :: _ :: _ => rfl
theorem isUnreachableLast_nodes (c : Cx) (l : List Node) :
    isUnreachableLast (cx ρ A T c) (ρ.nodes l) = isUnreachableLast c l := by
  match l with
  | [] => rfl
  | [.mk k as ks] =>
    cases k <;> try (simp [isUnreachableLast, Respelling.kind]; done)
    case sExpr semi =>
      match ks with
      | [] => simp [isUnreachableLast, Respelling.kind]
      | [e] => simp [isUnreachableLast, Respelling.kind, isUnreachable_node c e]
      | _ :: _ :: _ => simp [isUnreachableLast, Respelling.kind]
    case sLocal p =>
      match ks with
      | [] => simp [isUnreachableLast, Respelling.kind]
      | e :: _ => simp [isUnreachableLast, Respelling.kind, isUnreachable_node c e]
    case sMacro p t =>
      simp only [nodes_cons, nodes_nil, node_mk, Respelling.kind, isUnreachableLast]
      exact isUnreachableMacro_cx h c p
  | a :: b :: l =>
    have := isUnreachableLast_nodes c (b :: l)
    simp only [nodes_cons] at this ⊢
    rw [isUnreachableLast, isUnreachableLast, this]
theorem isUnreachableArms_nodes (c : Cx) (l : List Node) :
    isUnreachableArms (cx ρ A T c) (ρ.nodes l) = isUnreachableArms c l := by
  match l with
  | [] => rfl
  | .mk k as ks :: ns =>
    cases k <;> try (simp [isUnreachableArms, Respelling.kind]; done)
    case arm p =>
      match ks with
      | [] => simp [isUnreachableArms, Respelling.kind]
      | [b] => simp [isUnreachableArms, Respelling.kind, isUnreachable_node c b, isUnreachableArms_nodes c ns]
      | [g, b] => simp [isUnreachableArms, Respelling.kind, isUnreachable_node c b, isUnreachableArms_nodes c ns]
      | _ :: _ :: _ :: _ => simp [isUnreachableArms, Respelling.kind]
end

theorem variant_fixed (n : Nat) : ρ.ident (variantIdent n) = variantIdent n := h.variants n

theorem nextExprAttrs_pair (c : Cx) (as : List Attr) (e : Node) :
    (cx ρ A T c).nextExprAttrs (ρ.attrs as) (ρ.node e) = pair ρ A T (c.nextExprAttrs as e) := by
  simp only [Cx.nextExprAttrs, pair, exprCall_node, ofIdents_path, List.map_cons, List.map_nil, variant_fixed h]
  rfl

theorem nextExpr_pair (c : Cx) (e : Node) : (cx ρ A T c).nextExpr (ρ.node e) = pair ρ A T (c.nextExpr e) :=
  nextExprAttrs_pair h c [] e

theorem isMarkerExpr_node (c : Cx) (n : Node) : (cx ρ A T c).isMarkerExpr (ρ.node n) = c.isMarkerExpr n := by
  obtain ⟨k, as, ks⟩ := n
  rw [node_mk]
  cases k <;> first | rfl | exact isMarker_cx h c _

theorem replaceBoxed_pair (c : Cx) (ks : List Node) :
    (cx ρ A T c).replaceBoxed (ρ.nodes ks) = pairL ρ A T (c.replaceBoxed ks) := by
  match ks with
  | [] =>
    have := nextExpr_pair (A := A) (T := T) h c unitE
    rw [unitE_node] at this
    simp only [nodes_nil, Cx.replaceBoxed, this, pair, pairL, nodes_cons]
  | e :: rest =>
    simp only [nodes_cons, Cx.replaceBoxed, isMarkerExpr_node h]
    split
    · rfl
    · rw [nextExpr_pair h]; rfl

theorem skipArm_node (c : Cx) (n : Node) : skipArm (cx ρ A T c) (ρ.node n) = skipArm c n := by
  obtain ⟨k, as, ks⟩ := n
  have hf := findNested_node (ρ := ρ) (.mk k as ks)
  rw [node_mk] at hf ⊢
  match ks with
  | [] => rfl
  | [b] =>
    simp only [nodes_cons, nodes_nil] at hf
    simp [skipArm, armBody, isUnreachable_node h, hf]
  | [g, b] =>
    simp only [nodes_cons, nodes_nil] at hf
    simp [skipArm, armBody, isUnreachable_node h, hf]
  | _ :: _ :: _ :: _ => rfl

theorem wrapArm_pair (c : Cx) (n : Node) : wrapArm (cx ρ A T c) (ρ.node n) = pair ρ A T (wrapArm c n) := by
  unfold wrapArm
  rw [skipArm_node h]
  split
  · rfl
  · obtain ⟨k, as, ks⟩ := n
    rw [node_mk]
    cases k <;> try rfl
    case arm p =>
      match ks with
      | [] => rfl
      | [b] =>
        simp only [nodes_cons, nodes_nil, Respelling.kind, nextExpr_pair h]
        simp [pair, Respelling.kind]
      | [g, b] =>
        simp only [nodes_cons, nodes_nil, Respelling.kind, nextExpr_pair h]
        simp [pair, Respelling.kind]
      | _ :: _ :: _ :: _ => rfl

theorem skipBlock_nodes (c : Cx) (l : List Node) : skipBlock (cx ρ A T c) (ρ.nodes l) = skipBlock c l := by
  have hl : (ρ.nodes l).getLast? = l.getLast?.map ρ.node := by rw [nodes_map, List.getLast?_map]
  unfold skipBlock
  rw [hl, isUnreachableLast_nodes h, findNestedL_nodes]
  cases l.getLast? with
  | none => rfl
  | some n =>
    obtain ⟨k, as, ks⟩ := n
    rw [Option.map_some, node_mk]
    cases k <;> try rfl
    case sExpr semi =>
      cases semi <;> try rfl
      match ks with
      | [] => rfl
      | [e] => simp only [nodes_cons, nodes_nil, Respelling.kind, anyEmptyAttr_node _ known_nested, isUnreachable_node h]
      | _ :: _ :: _ => rfl

theorem wrapBlock_pair (c : Cx) (l : List Node) : wrapBlock (cx ρ A T c) (ρ.nodes l) = pairL ρ A T (wrapBlock c l) := by
  unfold wrapBlock
  rw [skipBlock_nodes h]
  split
  · rfl
  · rw [← exprBlock_node, nextExpr_pair h]
    simp [pair, pairL]

omit h in
theorem error_err (c : Cx) (e : Err) : (cx ρ A T c).error (ρ.err e) = cx ρ A T (c.error e) := by
  simp [Cx.error, cx]
omit h in
theorem error_cx (c : Cx) {e : Err} (he : ρ.err e = e) : (cx ρ A T c).error e = cx ρ A T (c.error e) := by
  rw [← error_err, he]
omit h in
@[simp] theorem hasError_cx (c : Cx) : (cx ρ A T c).hasError = c.hasError := by simp [Cx.hasError, cx]
omit h in
theorem panic_cx (c : Cx) (e : Panic) : (cx ρ A T c).panic e = cx ρ A T (c.panic e) := rfl
omit h in
theorem assert_cx (c : Cx) (b : Bool) (e : Panic) : (cx ρ A T c).assert b e = cx ρ A T (c.assert b e) := by
  cases b <;> rfl

theorem visitIf_pair : ∀ (n : Node) (c : Cx), visitIf (cx ρ A T c) (ρ.node n) = pair ρ A T (visitIf c n) := by
  refine Node.ind ?_
  intro k as ks ih c
  rw [node_mk]
  cases k <;> try rfl
  case eIf =>
    match ks, ih with
    | [], _ => rfl
    | [_], _ => rfl
    | [cnd, .mk kb asb ss], _ =>
      cases kb <;> try rfl
      case block =>
        simp only [nodes_cons, nodes_nil, Respelling.kind, node_mk, visitIf, wrapBlock_pair h]
        simp [pair, pairL, Respelling.kind, error_cx (ρ := ρ) (e := .missingElse) _ rfl]
    | [cnd, .mk kb asb ss, e], ih =>
      cases kb <;> try rfl
      case block =>
        have ihe := ih e (by simp)
        simp only [nodes_cons, nodes_nil, Respelling.kind, node_mk, visitIf, wrapBlock_pair h, kind_node, kids_node,
          rawAttrs_node]
        obtain ⟨ke, ase, kse⟩ := e
        simp only [Node.kind, Node.kids, Node.rawAttrs]
        cases ke <;> simp only [Respelling.kind] <;>
          try (simp [pair, pairL, Respelling.kind, panic_cx]; done)
        case eBlock l =>
          simp only [pairL, wrapBlock_pair h]
          simp [pair, Respelling.kind]
        case eIf =>
          simp only [pairL, ihe]
          simp [pair, Respelling.kind]
    | _ :: .mk kb asb ss :: _ :: _ :: _, _ => cases kb <;> rfl

theorem breakMatches_label (a b : Option String) (nested : Bool) :
    breakMatches (a.map ρ.label) nested (b.map ρ.label) = breakMatches a nested b := by
  cases a <;> cases b <;> simp [breakMatches]
  rename_i x y
  rw [Bool.eq_iff_iff]
  simp only [beq_iff_eq]
  exact ⟨h.labels x y, fun e => by rw [e]⟩

mutual
theorem loopVisit_pair (label : Option String) (nested : Bool) (c : Cx) (n : Node) :
    loopVisit (label.map ρ.label) nested (cx ρ A T c) (ρ.node n) = pair ρ A T (loopVisit label nested c n) := by
  obtain ⟨k, as, ks⟩ := n
  rw [node_mk, loopVisit.eq_def _ _ (cx ρ A T c), loopVisit.eq_def _ _ c]
  dsimp only
  rw [isOpaque, isExpr, anyEmptyAttr_map as known_never]
  have hL := fun nst => loopVisitL_pair label nst c ks
  split
  · rw [pair, node_mk]
  · cases k <;> simp only [Respelling.kind, hL] <;> try (simp [pair, pairL, Respelling.kind]; done)
    case eLoop l => split <;> simp_all [pair, pairL, Respelling.kind]
    case eForLoop l p => split <;> simp_all [pair, pairL, Respelling.kind]
    case eWhile l => split <;> simp_all [pair, pairL, Respelling.kind]
    case eBreak l =>
      rw [breakMatches_label h]
      split
      · match ks with
        | [] =>
          have := replaceBoxed_pair (A := A) (T := T) h c []
          rw [nodes_nil] at this
          simp only [nodes_nil, this]
          simp [pair, pairL, Respelling.kind]
        | e :: rest =>
          simp only [nodes_cons, isMarkerExpr_node h]
          split
          · simp [pair, Respelling.kind]
          · have := loopVisit_pair label nested { c with variants := c.variants ++ [variantIdent c.variants.length] } e
            simp only [cx] at this ⊢
            simp only [this]
            simp [pair, cx, Respelling.kind, variant_fixed h]
      · simp [pair, pairL, Respelling.kind]
theorem loopVisitL_pair (label : Option String) (nested : Bool) (c : Cx) (l : List Node) :
    loopVisitL (label.map ρ.label) nested (cx ρ A T c) (ρ.nodes l) = pairL ρ A T (loopVisitL label nested c l) := by
  match l with
  | [] => rfl
  | n :: ns =>
    rw [nodes_cons, loopVisitL, loopVisitL, loopVisit_pair label nested c n]
    simp only [pair, loopVisitL_pair label nested _ ns]
    simp [pairL]
end

omit h in
theorem mapA_pair {f g : Cx → Node → Cx × Node} (hfg : ∀ c n, g (cx ρ A T c) (ρ.node n) = pair ρ A T (f c n)) :
    ∀ (l : List Node) (c : Cx), mapA g (cx ρ A T c) (ρ.nodes l) = pairL ρ A T (mapA f c l) := by
  intro l
  induction l with
  | nil => intro c; rfl
  | cons n l ih => intro c; simp only [nodes_cons, mapA, hfg, pair, ih]; simp [pairL]

omit h in
theorem walk_pair {f g : Cx → Node → Cx × Node} (hfg : ∀ c n, g (cx ρ A T c) (ρ.node n) = pair ρ A T (f c n))
    (c : Cx) (n : Node) : walk g (cx ρ A T c) (ρ.node n) = pair ρ A T (walk f c n) := by
  obtain ⟨k, as, ks⟩ := n
  rw [node_mk, walk, walk, isOpaque]
  split
  · rw [pair, node_mk]
  · simp only [mapA_pair hfg]; simp [pair, pairL]

mutual
theorem childExpr_pair (c : Cx) (n : Node) : childExpr (cx ρ A T c) (ρ.node n) = pair ρ A T (childExpr c n) := by
  obtain ⟨k, as, ks⟩ := n
  rw [node_mk, childExpr.eq_def (cx ρ A T c), childExpr.eq_def c]
  dsimp only
  have hu := isUnreachable_node (A := A) (T := T) h c (.mk k as ks)
  rw [node_mk] at hu
  have hv : (cx ρ A T c).visitLast = c.visitLast := rfl
  rw [hu, hv]
  split
  · rw [pair, node_mk]
  · cases k <;> try (simp [pair, pairL, Respelling.kind]; done)
    case eBlock l =>
      simp only [Respelling.kind, childLast_pair c ks]; simp [pair, pairL, Respelling.kind]
    case eUnsafe =>
      simp only [Respelling.kind, childLast_pair c ks]; simp [pair, pairL, Respelling.kind]
    case eMatch =>
      match ks with
      | [] => rfl
      | s :: arms =>
        simp only [nodes_cons, Respelling.kind, mapA_pair (wrapArm_pair h)]; simp [pair, pairL, Respelling.kind]
    case eIf =>
      have := visitIf_pair (A := A) (T := T) h (.mk .eIf as ks) c
      rw [node_mk] at this
      exact this
    case eLoop l =>
      simp only [Respelling.kind, loopVisitL_pair h]; simp [pair, pairL, Respelling.kind]
    case eMethodCall m =>
      match ks with
      | [] => rfl
      | e :: args => simp only [nodes_cons, Respelling.kind, childExpr_pair c e]; simp [pair, Respelling.kind]
    case eParen =>
      match ks with
      | [] => rfl
      | [e] => simp only [nodes_cons, nodes_nil, Respelling.kind, childExpr_pair c e]; simp [pair, Respelling.kind]
      | _ :: _ :: _ => rfl
theorem childLast_pair (c : Cx) (l : List Node) : childLast (cx ρ A T c) (ρ.nodes l) = pairL ρ A T (childLast c l) := by
  match l with
  | [] => rfl
  | [.mk k as ks] =>
    cases k <;> try (simp [childLast, pairL, Respelling.kind]; done)
    case sExpr semi =>
      cases semi
      · match ks with
        | [] => simp [childLast, pairL, Respelling.kind]
        | [e] => simp [childLast, pairL, Respelling.kind, childExpr_pair c e, pair]
        | _ :: _ :: _ => simp [childLast, pairL, Respelling.kind]
      · simp [childLast, pairL, Respelling.kind]
  | a :: b :: l =>
    have := childLast_pair c (b :: l)
    simp only [nodes_cons] at this ⊢
    rw [childLast, childLast, this]
    simp [pairL]
end

mutual
theorem fnCount_node (c : Cx) (cl : Bool) (n : Node) : fnCount (cx ρ A T c) cl (ρ.node n) = fnCount c cl n := by
  obtain ⟨k, as, ks⟩ := n
  rw [node_mk, fnCount.eq_def (cx ρ A T c), fnCount.eq_def c]
  dsimp only
  have hs : (Scope.check { closure := cl } (ρ.kind k)) = Scope.check { closure := cl } k := by
    cases k <;> rfl
  rw [hs, isOpaque, fnCountL_nodes c _ ks]
  have hh : ∀ b, fnCountHere (cx ρ A T c) b (ρ.attrs as) (ρ.kind k) (ρ.nodes ks) = fnCountHere c b as k ks := by
    intro b
    cases k <;> try (first | rfl | (simp only [Respelling.kind, fnCountHere, anyEmptyAttr_map _ known_never]; done))
    case eTry =>
      match ks with
      | [] => simp only [nodes_nil, Respelling.kind, fnCountHere, anyEmptyAttr_map _ known_never]
      | e :: _ => simp only [nodes_cons, Respelling.kind, fnCountHere, isMarkerExpr_node h, anyEmptyAttr_map _ known_never]
    case eReturn =>
      match ks with
      | [] => simp only [nodes_nil, Respelling.kind, fnCountHere, anyEmptyAttr_map _ known_never]
      | e :: _ => simp only [nodes_cons, Respelling.kind, fnCountHere, isMarkerExpr_node h, anyEmptyAttr_map _ known_never]
  rw [hh]
theorem fnCountL_nodes (c : Cx) (cl : Bool) (l : List Node) : fnCountL (cx ρ A T c) cl (ρ.nodes l) = fnCountL c cl l := by
  match l with
  | [] => rfl
  | n :: ns => rw [nodes_cons, fnCountL, fnCountL, fnCount_node c cl n, fnCountL_nodes c cl ns]
end

/-! ## The visitors -/

/-- A result of `Context::new` or of the parser of the arguments. -/
def res {α β : Type} (ρ : Respelling) (f : α → β) : Except Err α → Except Err β
  | .error e => .error (ρ.err e)
  | .ok a => .ok (f a)

def argsMap (ρ : Respelling) (a : Args) : Args := ⟨a.args, a.marker.map ρ.mac⟩

omit h in
theorem toks_cons {t : Tok} {l : List Tok} (hl : ∀ m l', ¬(t = .ident "marker" ∧ l = .eq :: .ident m :: l')) :
    ρ.toks (t :: l) = t :: ρ.toks l := by
  rw [Respelling.toks.eq_def]
  split
  · rename_i heq; cases heq; exact absurd ⟨rfl, rfl⟩ (hl _ _)
  · rename_i heq; cases heq; rfl
  · rename_i heq; cases heq

omit h in
theorem toks_head (l : List Tok) : (ρ.toks l).head? = l.head? := by
  unfold Respelling.toks
  split <;> rfl

omit h in
theorem toks_length : ∀ l : List Tok, (ρ.toks l).length = l.length
  | [] => by unfold Respelling.toks; rfl
  | t :: l => by
    by_cases ht : ∃ m l', t = .ident "marker" ∧ l = .eq :: .ident m :: l'
    · obtain ⟨m, l', rfl, rfl⟩ := ht
      rw [Respelling.toks]
      simp [toks_length l']
    · rw [toks_cons fun m l' e => ht ⟨m, l', e⟩]
      simp [toks_length l]

/-- What is left after a path: the respelled rest, or something that begins with `=`. -/
def Left (ρ : Respelling) (r r' : List Tok) : Prop := r' = ρ.toks r ∨ ∃ x y, r = .eq :: x ∧ r' = .eq :: y

def LeftO {α : Type} (ρ : Respelling) : Option (α × List Tok) → Option (α × List Tok) → Prop
  | none, none => True
  | some a, some b => a.1 = b.1 ∧ Left ρ a.2 b.2
  | _, _ => False

omit h in
theorem segs_angle (s : Ident) (a : String) {l : List Tok} (hl : l.head? ≠ some .colon2) :
    parseSegs (.ident s :: .angle a :: l) = some ([⟨s, some a⟩], l) := by
  match l, hl with
  | [], _ => rfl
  | .colon2 :: _, hl => simp at hl
  | .ident _ :: _, _ | .angle _ :: _, _ | .comma :: _, _ | .eq :: _, _ | .other _ :: _, _ => simp [parseSegs]

omit h in
theorem segs_plain (s : Ident) {l : List Tok} (hl : l.head? ≠ some .colon2) (ha : ∀ a, l.head? ≠ some (.angle a)) :
    parseSegs (.ident s :: l) = some ([⟨s, none⟩], l) := by
  match l, hl, ha with
  | [], _, _ => rfl
  | .colon2 :: _, hl, _ => simp at hl
  | .angle a :: _, _, ha => simp at ha
  | .ident _ :: _, _, _ | .comma :: _, _, _ | .eq :: _, _, _ | .other _ :: _, _, _ => simp [parseSegs]

omit h in
theorem parseSegs_toks (l : List Tok) : LeftO ρ (parseSegs l) (parseSegs (ρ.toks l)) := by
  match l with
  | [] => simp [Respelling.toks, parseSegs, LeftO]
  | .ident s :: l =>
    by_cases hm : ∃ m l', Tok.ident s = .ident "marker" ∧ l = .eq :: .ident m :: l'
    · obtain ⟨m, l', hs, rfl⟩ := hm
      cases hs
      rw [Respelling.toks, segs_plain _ (by simp) (by simp), segs_plain _ (by simp) (by simp)]
      exact ⟨rfl, .inr ⟨_, _, rfl, rfl⟩⟩
    · by_cases h1 : l.head? = some .colon2
      · match l, h1 with
        | .colon2 :: rest, _ =>
          rw [toks_cons (by simp), toks_cons (by simp)]
          have := parseSegs_toks rest
          simp only [parseSegs]
          revert this
          cases parseSegs rest <;> cases parseSegs (ρ.toks rest) <;> simp [LeftO]
      · by_cases h2 : ∃ a, l.head? = some (.angle a)
        · obtain ⟨a, h2⟩ := h2
          match l, h2 with
          | .angle a' :: l, _ =>
            by_cases hl : l.head? = some .colon2
            · match l, hl with
              | .colon2 :: rest, _ =>
                rw [toks_cons (by simp), toks_cons (by simp), toks_cons (by simp)]
                have := parseSegs_toks rest
                simp only [parseSegs]
                revert this
                cases parseSegs rest <;> cases parseSegs (ρ.toks rest) <;> simp [LeftO]
            · rw [toks_cons (by simp), toks_cons (by simp), segs_angle s a' hl,
                segs_angle s a' (by rw [toks_head]; exact hl)]
              exact ⟨rfl, .inl rfl⟩
        · have h2 : ∀ a, l.head? ≠ some (.angle a) := fun a e => h2 ⟨a, e⟩
          rw [toks_cons fun m l' e => hm ⟨m, l', e⟩, segs_plain s h1 h2,
            segs_plain s (by rw [toks_head]; exact h1) (by intro a; rw [toks_head]; exact h2 a)]
          exact ⟨rfl, .inl rfl⟩
  | .angle _ :: _ => simp [toks_cons, parseSegs, LeftO]
  | .colon2 :: _ => simp [toks_cons, parseSegs, LeftO]
  | .comma :: _ => simp [toks_cons, parseSegs, LeftO]
  | .eq :: _ => simp [toks_cons, parseSegs, LeftO]
  | .other _ :: _ => simp [toks_cons, parseSegs, LeftO]
termination_by l.length

omit h in
theorem parsePath_toks (l : List Tok) : LeftO ρ (parsePath l) (parsePath (ρ.toks l)) := by
  have hmap : ∀ (b : Bool) (l : List Tok), LeftO ρ ((parseSegs l).map fun r => (Path.mk b r.1, r.2))
      ((parseSegs (ρ.toks l)).map fun r => (Path.mk b r.1, r.2)) := by
    intro b l
    have := parseSegs_toks (ρ := ρ) l
    revert this
    cases parseSegs l <;> cases parseSegs (ρ.toks l) <;> simp [LeftO]
  have hp : ∀ l : List Tok, l.head? ≠ some .colon2 →
      parsePath l = (parseSegs l).map fun r => (⟨false, r.1⟩, r.2) := by
    intro l hl
    unfold parsePath
    split
    · simp at hl
    · rfl
  by_cases hl : l.head? = some .colon2
  · match l, hl with
    | .colon2 :: rest, _ =>
      rw [toks_cons (by simp)]
      exact hmap true rest
  · rw [hp l hl, hp _ (by rw [toks_head]; exact hl)]
    exact hmap false l

omit h in
theorem loop_path {t : Tok} {l : List Tok} (hl : ∀ l', ¬(t = .ident "marker" ∧ l = .eq :: l')) (n : Nat)
    (acc : List Path) (m : Option Ident) : parseArgsLoop (n + 1) (t :: l) acc m =
      match parsePath (t :: l) with
      | none => .error .argParse
      | some (p, []) => .ok ⟨acc ++ [p], m⟩
      | some (p, .comma :: rest) => parseArgsLoop n rest (acc ++ [p]) m
      | some _ => .error .argParse := by
  rw [parseArgsLoop.eq_def]
  dsimp only
  split
  · rename_i heq; cases heq; exact absurd ⟨rfl, rfl⟩ (hl _)
  · rename_i heq; cases heq; exact absurd ⟨rfl, rfl⟩ (hl _)
  · rfl

omit h in
theorem loop_toks : ∀ (n : Nat) (l : List Tok) (acc : List Path) (m : Option Ident),
    parseArgsLoop n (ρ.toks l) acc (m.map ρ.mac) = res ρ (argsMap ρ) (parseArgsLoop n l acc m) := by
  intro n
  induction n with
  | zero =>
    intro l acc m
    match l with
    | [] => simp [Respelling.toks, parseArgsLoop, res, argsMap]
    | t :: l =>
      have := toks_head (ρ := ρ) (t :: l)
      match hr : ρ.toks (t :: l), this with
      | t' :: l', _ => rfl
  | succ n ih =>
    intro l acc m
    match l with
    | [] => simp [Respelling.toks, parseArgsLoop, res, argsMap]
    | t :: l =>
      by_cases hm : ∃ i l', t = .ident "marker" ∧ l = .eq :: .ident i :: l'
      · obtain ⟨i, l, rfl, rfl⟩ := hm
        rw [Respelling.toks]
        simp only [parseArgsLoop, Option.isSome_map]
        split
        · rfl
        · match l with
          | [] => simp [Respelling.toks, res, argsMap]
          | .comma :: r =>
            rw [toks_cons (by simp)]
            exact ih r acc (some i)
          | .ident x :: r =>
            have := toks_head (ρ := ρ) (.ident x :: r)
            match hr : ρ.toks (.ident x :: r), this with
            | t' :: l', e => cases e; rfl
          | .angle _ :: r => rw [toks_cons (by simp)]; rfl
          | .colon2 :: r => rw [toks_cons (by simp)]; rfl
          | .eq :: r => rw [toks_cons (by simp)]; rfl
          | .other _ :: r => rw [toks_cons (by simp)]; rfl
      · by_cases he : ∃ l', t = .ident "marker" ∧ l = .eq :: l'
        · obtain ⟨l, rfl, rfl⟩ := he
          have hi : ∀ i, l.head? ≠ some (.ident i) := by
            intro i hl
            match l, hl with
            | _ :: l, hl => cases hl; exact hm ⟨i, l, rfl, rfl⟩
          have herr : ∀ (l : List Tok) (m : Option Ident), (∀ i, l.head? ≠ some (.ident i)) →
              parseArgsLoop (n + 1) (.ident "marker" :: .eq :: l) acc m = .error .argParse := by
            intro l m hl
            match l, hl with
            | [], _ => rfl
            | .ident i :: _, hl => simp at hl
            | .angle _ :: _, _ | .colon2 :: _, _ | .comma :: _, _ | .eq :: _, _ | .other _ :: _, _ => rfl
          rw [toks_cons fun i l' e => hm ⟨i, l', e⟩, toks_cons (by simp), herr _ _ hi,
            herr _ _ (by intro i; rw [toks_head]; exact hi i)]
          rfl
        · have he1 : ∀ l', ¬(t = .ident "marker" ∧ l = .eq :: l') := fun l' e => he ⟨l', e⟩
          have he2 : ∀ l', ¬(t = .ident "marker" ∧ ρ.toks l = .eq :: l') := by
            intro l' e
            have := toks_head (ρ := ρ) l
            rw [e.2] at this
            match l, this with
            | _ :: l, this => cases this; exact he1 l ⟨e.1, rfl⟩
          have hp := parsePath_toks (ρ := ρ) (t :: l)
          rw [toks_cons fun i l' e => hm ⟨i, l', e⟩] at hp ⊢
          rw [loop_path he1, loop_path he2]
          revert hp
          cases parsePath (t :: l) with
          | none =>
            cases parsePath (t :: ρ.toks l) with
            | none => intro _; rfl
            | some _ => intro hp; exact hp.elim
          | some a =>
            cases parsePath (t :: ρ.toks l) with
            | none => intro hp; exact hp.elim
            | some b =>
              obtain ⟨p, r⟩ := a
              obtain ⟨p', r'⟩ := b
              rintro ⟨rfl, hp⟩
              rcases hp with hp | ⟨x, y, hx, hy⟩
              · dsimp only at hp
                subst hp
                match r with
                | [] => simp [Respelling.toks, res, argsMap]
                | .comma :: r =>
                  rw [toks_cons (by simp)]
                  exact ih r _ m
                | .ident x :: r =>
                  have := toks_head (ρ := ρ) (.ident x :: r)
                  match hr : ρ.toks (.ident x :: r), this with
                  | t' :: l', e => cases e; rfl
                | .angle _ :: r => rw [toks_cons (by simp)]; rfl
                | .colon2 :: r => rw [toks_cons (by simp)]; rfl
                | .eq :: r => rw [toks_cons (by simp)]; rfl
                | .other _ :: r => rw [toks_cons (by simp)]; rfl
              · dsimp only at hx hy
                subst hx hy
                rfl

omit h in
theorem parseArgs_toks (toks : List Tok) : parseArgs (ρ.toks toks) = res ρ (argsMap ρ) (parseArgs toks) := by
  unfold parseArgs
  rw [toks_length]
  exact loop_toks _ _ _ none

theorem new_cx {g g' : Nat} (hg : ρ.ident (enumIdent g) = enumIdent g') (toks : List Tok) (root : Bool)
    (markers : List String) (diag : List Err) :
    Cx.new g' (ρ.toks toks) root (markers.map ρ.mac) (diag.map ρ.err) =
      res ρ (cx ρ id id) (Cx.new g toks root markers diag) := by
  have hd : ρ.mac DEFAULT_MARKER = DEFAULT_MARKER := h.knownMacros _ (by simp [DEFAULT_MARKER])
  unfold Cx.new
  rw [parseArgs_toks]
  cases parseArgs toks with
  | error e => rfl
  | ok a =>
    obtain ⟨as, m⟩ := a
    cases m with
    | none => simp [res, argsMap, cx, hg, hd]
    | some m =>
      have hc : (markers.map ρ.mac).contains (ρ.mac m) = markers.contains m := by
        rw [Bool.eq_iff_iff]
        simp only [List.contains_iff_mem, List.mem_map]
        exact ⟨fun ⟨x, hx, e⟩ => h.macros x m e ▸ hx, fun hx => ⟨m, hx, rfl⟩⟩
      simp only [res, argsMap, Option.map_some, hc]
      split
      · rfl
      · simp [cx, hg]

theorem makeChild_cx {g g' : Nat} (hg : ρ.ident (enumIdent g) = enumIdent g') (c : Cx) (toks : List Tok) :
    (cx ρ A T c).makeChild g' (ρ.toks toks) =
      (cx ρ A T (c.makeChild g toks).1, res ρ (cx ρ id id) (c.makeChild g toks).2) := by
  unfold Cx.makeChild
  have h1 : (cx ρ A T c).assert (cx ρ A T c).hasChild .makeChildNoChild = cx ρ A T (c.assert c.hasChild .makeChildNoChild) :=
    assert_cx c c.hasChild _
  simp only [h1]
  rw [← new_cx h hg]
  rfl

omit h in
theorem joinChild_cx (c d : Cx) : (cx ρ A T c).joinChild (cx ρ id id d) = cx ρ A T (c.joinChild d) := by
  unfold Cx.joinChild
  have h1 : (cx ρ A T c).assert (cx ρ A T c).markers.isEmpty .joinMarkers = cx ρ A T (c.assert c.markers.isEmpty .joinMarkers) :=
    by rw [← assert_cx]; simp [cx]
  simp only [h1]
  simp [cx]

omit h in
theorem build_cx (c : Cx) : (cx ρ id id c).build = (cx ρ id id c.build.1, c.build.2.map ρ.node) := by
  have hb : (cx ρ id id c).buildEnum = ρ.node c.buildEnum := by
    simp [Cx.buildEnum, Respelling.kind, Respelling.item, cx]
  unfold Cx.build
  have h1 : (cx ρ id id c).hasError = c.hasError := hasError_cx c
  have h2 : (cx ρ id id c).variants = c.variants := rfl
  have h3 : (cx ρ id id c).hasChild = c.hasChild := rfl
  have h4 : (cx ρ id id c).lastMode = c.lastMode := rfl
  rw [h1, h2, h3, h4, hb]
  split
  · rfl
  · split
    · rw [error_cx (ρ := ρ) _ rfl]; rfl
    · split <;> rfl

section

variable {env env' : Env} (ht : env'.typeAnalysis = env.typeAnalysis)
  (hh : ∀ n, ρ.ident (enumIdent (env.hash n)) = enumIdent (env'.hash (ρ.node n)))
  {rec rec' : Rec} (hrec : ∀ ⦃A T⦄ vk sc c n, rec' vk sc (cx ρ A T c) (ρ.node n) = pair ρ A T (rec vk sc c n))

omit h in
include hrec in
theorem dummyExpr_pair (c : Cx) (n : Node) : dummyExpr rec' (cx ρ id id c) (ρ.node n) = pair ρ id id (dummyExpr rec c n) := by
  unfold dummyExpr
  have h1 : (cx ρ id id c).assert (cx ρ id id c).args.isEmpty .dummyArgs = cx ρ id id (c.assert c.args.isEmpty .dummyArgs) :=
    assert_cx c _ _
  rw [h1, hrec]

omit h in
include hrec in
theorem dummyWalk_pair (c : Cx) (n : Node) : dummyWalk rec' (cx ρ id id c) (ρ.node n) = pair ρ id id (dummyWalk rec c n) := by
  unfold dummyWalk
  have h1 : (cx ρ id id c).assert (cx ρ id id c).args.isEmpty .dummyArgs = cx ρ id id (c.assert c.args.isEmpty .dummyArgs) :=
    assert_cx c _ _
  rw [h1]
  exact walk_pair (hrec .dummy {}) _ n

omit h in
include ht in
theorem analysisExit_cx (c : Cx) : (cx ρ id id c).analysisExit env' = c.analysisExit env := by
  unfold Cx.analysisExit
  rw [ht]
  rfl

include ht hrec in
theorem expandTarget_pair (c : Cx) (n : Node) :
    expandTarget env' rec' (cx ρ id id c) (ρ.node n) = pair ρ id id (expandTarget env rec c n) := by
  unfold expandTarget
  simp only [childExpr_pair h, pair]
  rw [analysisExit_cx ht]
  split
  · exact dummyExpr_pair hrec _ _
  · exact hrec _ _ _ _

include ht hrec in
theorem expandExpr_pair (c : Cx) (n : Node) :
    expandExpr env' rec' (cx ρ id id c) (ρ.node n) = pair ρ id id (expandExpr env rec c n) := by
  have hT := expandTarget_pair h ht hrec c n
  obtain ⟨k, as, ks⟩ := n
  rw [node_mk] at hT ⊢
  cases k <;> try exact hT
  case eClosure i =>
    match ks, hT with
    | [], hT => exact hT
    | [b], hT =>
      simp only [nodes_cons, nodes_nil, Respelling.kind] at hT ⊢
      unfold expandExpr
      dsimp only
      have hv : (cx ρ id id c).visitLast = c.visitLast := rfl
      rw [hv]
      split
      · have hc : visitFn (cx ρ id id c) (ρ.node b) = visitFn c b := fnCount_node h c false b
        rw [hc]
        have := expandTarget_pair h ht hrec
          { c with mode := if (visitFn c b).try_ ≥ 2 then .try_ else .ret (visitFn c b).return_ } b
        simp only [cx] at this ⊢
        simp only [this]
        simp [pair, Respelling.kind, cx]
      · exact hT
    | _ :: _ :: _, hT => exact hT

include ht hrec in
theorem expandBuild_pair (c : Cx) (n : Node) :
    expandBuild env' rec' (cx ρ id id c) (ρ.node n) = pair ρ id id (expandBuild env rec c n) := by
  unfold expandBuild
  simp only [expandExpr_pair h ht hrec, pair, build_cx]
  generalize (expandExpr env rec c n).1.build = r
  obtain ⟨c1, o⟩ := r
  cases o with
  | none => rfl
  | some item => simp [buildExpr]

include ht hrec in
theorem expandParentExpr_pair (c : Cx) (n : Node) (semi : Bool) :
    expandParentExpr env' rec' (cx ρ id id c) (ρ.node n) semi = pair ρ id id (expandParentExpr env rec c n semi) := by
  unfold expandParentExpr
  have h1 : (if semi = true then { cx ρ id id c with lastMode := .never } else cx ρ id id c) =
      cx ρ id id (if semi = true then { c with lastMode := .never } else c) := by cases semi <;> rfl
  simp only [h1]
  generalize (if semi = true then { c with lastMode := VisitLastMode.never } else c) = c
  have h2 : (cx ρ id id c).isDummy = c.isDummy := rfl
  rw [h2]
  split
  · exact dummyExpr_pair hrec _ _
  · exact expandBuild_pair h ht hrec _ _

omit h in
include ht in
theorem localAnalysis_cx (c : Cx) (p : LetPat) :
    localAnalysis env' (cx ρ id id c) (ρ.letPat p) =
      (cx ρ id id (localAnalysis env c p).1, ρ.letPat (localAnalysis env c p).2) := by
  unfold localAnalysis
  rw [ht]
  split
  · cases p with
    | plain s => rfl
    | typed s ty =>
      simp only [Respelling.letPat]
      have h1 : (cx ρ id id c).collectImplTrait ty = (cx ρ id id (c.collectImplTrait ty).1, (c.collectImplTrait ty).2) := rfl
      rw [h1]
      dsimp only
      split <;> rfl
  · rfl

include ht hrec in
theorem expandParentLocal_pair (c : Cx) (p : LetPat) (as : List Attr) (ks : List Node) :
    expandParentLocal env' rec' (cx ρ id id c) (ρ.letPat p) (ρ.attrs as) (ρ.nodes ks) =
      pair ρ id id (expandParentLocal env rec c p as ks) := by
  unfold expandParentLocal
  simp only [localAnalysis_cx ht]
  generalize localAnalysis env c p = r
  obtain ⟨c1, p1⟩ := r
  dsimp only
  have h2 : (cx ρ id id c1).isDummy = c1.isDummy := rfl
  rw [h2]
  split
  · have := dummyWalk_pair hrec c1 (.mk (.sLocal p1) as ks)
    rw [node_mk] at this
    exact this
  · match ks with
    | [] => simp [pair, error_cx (ρ := ρ) (e := .uninitLet) _ rfl, Respelling.kind]
    | e :: els =>
      simp only [nodes_cons, expandBuild_pair h ht hrec]
      simp [pair, Respelling.kind]

include ht in
theorem fnAnalysis_cx (c : Cx) (ret : Option Ty) (b : Node) :
    fnAnalysis env' (cx ρ id id c) ret (ρ.node b) = cx ρ id id (fnAnalysis env c ret b) := by
  unfold fnAnalysis
  cases ret with
  | none => rfl
  | some ty =>
    have hc : visitFn (cx ρ id id c) (ρ.node b) = visitFn c b := fnCount_node h c false b
    have hm : retMode (cx ρ id id c) ty (ρ.node b) = retMode c ty b := by
      unfold retMode
      rw [hc]
      rfl
    dsimp only
    rw [hm, ht]
    split <;> rfl

include ht hrec in
theorem expandParentFn_pair (c : Cx) (name : String) (ret : Option Ty) (as asb : List Attr) (ss : List Node) :
    expandParentFn env' rec' (cx ρ id id c) (ρ.text name) ret (ρ.attrs as) (ρ.attrs asb) (ρ.nodes ss) =
      pair ρ id id (expandParentFn env rec c name ret as asb ss) := by
  have hfn : ∀ ss, Node.mk (.iFn (ρ.text name) ret) (ρ.attrs as) [.mk .block (ρ.attrs asb) (ρ.nodes ss)] =
      ρ.node (.mk (.iFn name ret) as [.mk .block asb ss]) := by intro ss; simp [Respelling.kind]
  have hb : Node.mk .block (ρ.attrs asb) (ρ.nodes ss) = ρ.node (.mk .block asb ss) := by simp [Respelling.kind]
  unfold expandParentFn
  dsimp only
  rw [hb, fnAnalysis_cx h ht, ← hb]
  generalize fnAnalysis env c ret (.mk .block asb ss) = c
  have h2 : (cx ρ id id c).isDummy = c.isDummy := rfl
  rw [h2]
  split
  · rw [hfn]; exact dummyWalk_pair hrec _ _
  · have h3 : (if (ρ.nodes ss).isEmpty = true then ((cx ρ id id c).error .emptyFn, ρ.nodes ss)
        else childLast (cx ρ id id c) (ρ.nodes ss)) =
        pairL ρ id id (if ss.isEmpty = true then (c.error .emptyFn, ss) else childLast c ss) := by
      rw [nodes_isEmpty, childLast_pair h, error_cx (ρ := ρ) _ rfl]
      split <;> rfl
    rw [h3]
    generalize (if ss.isEmpty = true then (c.error .emptyFn, ss) else childLast c ss) = r
    obtain ⟨c1, ss1⟩ := r
    simp only [pairL, analysisExit_cx ht, hfn]
    split
    · exact dummyWalk_pair hrec _ _
    · rw [walk_pair (hrec .visitor {})]
      generalize walk (rec .visitor {}) c1 (.mk (.iFn name ret) as [.mk .block asb ss1]) = w
      obtain ⟨c2, n⟩ := w
      simp only [pair, build_cx]
      generalize c2.build = o
      obtain ⟨c3, o⟩ := o
      obtain ⟨k, as, ks⟩ := n
      cases o with
      | none => simp
      | some item =>
        match ks with
        | [] => simp
        | [.mk kb asb ssb] => cases kb <;> simp [Respelling.kind]
        | _ :: _ :: _ => simp

include ht hrec in
theorem expandParentStmt_pair (c : Cx) (n : Node) :
    expandParentStmt env' rec' (cx ρ id id c) (ρ.node n) = pair ρ id id (expandParentStmt env rec c n) := by
  obtain ⟨k, as, ks⟩ := n
  rw [node_mk]
  cases k <;> try rfl
  case sExpr semi =>
    match ks with
    | [] => rfl
    | [e] =>
      simp only [nodes_cons, nodes_nil, Respelling.kind, expandParentStmt, expandParentExpr_pair h ht hrec]
      simp [pair, Respelling.kind]
    | _ :: _ :: _ => rfl
  case sLocal p => exact expandParentLocal_pair h ht hrec c p as ks
  case sItem i => simp [expandParentStmt, Respelling.kind, pair, error_cx (ρ := ρ) (e := .badTarget) _ rfl]
  case iFn name ret =>
    match ks with
    | [] => rfl
    | [.mk kb asb ss] =>
      cases kb <;> try rfl
      case block =>
        have := expandParentFn_pair h ht hrec c name ret as asb ss
        simp only [nodes_cons, nodes_nil, node_mk, Respelling.kind, expandParentStmt]
        exact this
    | .mk kb _ _ :: _ :: _ => cases kb <;> rfl

include ht hh hrec in
theorem vsVisitExpr_pair (vk : VK) (sc : Scope) (c : Cx) (n : Node) (semi : Bool) :
    vsVisitExpr env' rec' vk sc (cx ρ A T c) (ρ.node n) semi = pair ρ A T (vsVisitExpr env rec vk sc c n semi) := by
  unfold vsVisitExpr
  rw [findRemoveAttr _ known_name]
  cases hf : n.findRemoveAttr NAME with
  | none => exact walk_pair (hrec vk sc) c n
  | some r =>
    obtain ⟨a, n⟩ := r
    simp only [Option.map_some, attr_form (ρ := ρ) (findRemoveAttr_is hf)]
    cases a.form with
    | list toks =>
      simp only [makeChild_cx h (hh n)]
      generalize c.makeChild (env.hash n) toks = m
      obtain ⟨c1, e⟩ := m
      dsimp only
      rw [walk_pair (hrec vk sc)]
      generalize walk (rec vk sc) c1 n = w
      obtain ⟨c2, n2⟩ := w
      cases e with
      | error e => simp only [res, pair, error_err]
      | ok child =>
        simp only [res, pair, expandParentExpr_pair h ht hrec, joinChild_cx]
    | _ =>
      simp only [walk_pair (hrec vk sc), pair, error_cx (ρ := ρ) (e := .requireList) _ rfl]

omit h in
theorem findRemoveAttrs_pair (sc : Scope) (c : Cx) (n : Node) :
    findRemoveAttrs sc (cx ρ A T c) (ρ.node n) = pair ρ A T (findRemoveAttrs sc c n) := by
  unfold findRemoveAttrs
  split
  · rfl
  · dsimp only
    rw [findRemoveAttr _ known_never]
    have h1 : ∀ (c : Cx) (n : Node), (match (ρ.node n).findRemoveAttr "rec" with
        | some (_, n) => ((cx ρ A T c).error .recRemoved, n)
        | none => (cx ρ A T c, ρ.node n)) = pair ρ A T (match n.findRemoveAttr "rec" with
        | some (_, n) => (c.error .recRemoved, n)
        | none => (c, n)) := by
      intro c n
      rw [findRemoveAttr _ known_rec]
      cases n.findRemoveAttr "rec" with
      | none => rfl
      | some r => simp only [Option.map_some, error_cx (ρ := ρ) (e := .recRemoved) _ rfl]; rfl
    cases n.findRemoveAttr NEVER with
    | none => exact h1 c n
    | some r =>
      obtain ⟨a, n⟩ := r
      simp only [Option.map_some, attr_pathOnly, error_cx (ρ := ρ) (e := .neverNotPath) _ rfl]
      cases a.form == .path
      · exact h1 (c.error .neverNotPath) n
      · exact h1 c n

theorem visitNested_pair (sc : Scope) (c : Cx) (n : Node) (a : Attr) :
    visitNested sc (cx ρ A T c) (ρ.node n) (ρ.attr a) = pair ρ A T (visitNested sc c n a) := by
  unfold visitNested
  rw [assert_cx, attr_pathOnly]
  dsimp only
  split
  · exact childExpr_pair h _ n
  · rw [error_cx (ρ := ρ) _ rfl]; rfl

include hrec in
theorem visitLocal_pair (vk : VK) (sc : Scope) (c : Cx) (n : Node) :
    visitLocal rec' vk sc (cx ρ A T c) (ρ.node n) = pair ρ A T (visitLocal rec vk sc c n) := by
  unfold visitLocal
  cases vk with
  | dummy => exact walk_pair (hrec .dummy sc) c n
  | visitor =>
    dsimp only
    have h1 : (cx ρ A T c).hasError = c.hasError := hasError_cx c
    rw [h1]
    split
    · rfl
    · have h2 : ∀ r : Cx × Node,
          (let w := walk (rec' .visitor sc) (pair ρ A T r).1 (pair ρ A T r).2; findRemoveAttrs sc w.1 w.2) =
          pair ρ A T (let w := walk (rec .visitor sc) r.1 r.2; findRemoveAttrs sc w.1 w.2) := by
        intro r
        simp only [pair]
        rw [walk_pair (hrec .visitor sc)]
        exact findRemoveAttrs_pair sc _ _
      split
      · exact h2 (c, n)
      · rw [findRemoveAttr _ known_nested]
        cases n.findRemoveAttr NESTED with
        | none => exact h2 (c, n)
        | some r =>
          obtain ⟨a, k, as, ks⟩ := r
          simp only [Option.map_some, node_mk]
          cases k <;> try (exact h2 (c, .mk _ as ks))
          case sLocal p =>
            match ks with
            | [] => exact h2 (c, .mk (.sLocal p) as [])
            | e :: els =>
              simp only [nodes_cons, Respelling.kind, visitNested_pair h]
              have := h2 ((visitNested sc c e a).1, .mk (.sLocal p) as ((visitNested sc c e a).2 :: els))
              simp only [pair, node_mk, nodes_cons, Respelling.kind] at this
              exact this

include ht hh hrec in
theorem vsVisitStmt_pair (vk : VK) (sc : Scope) (c : Cx) (n : Node) :
    vsVisitStmt env' rec' vk sc (cx ρ A T c) (ρ.node n) = pair ρ A T (vsVisitStmt env rec vk sc c n) := by
  have hA := findRemoveAttr (ρ := ρ) n known_name
  have hV := visitLocal_pair (A := A) (T := T) h hrec vk sc c n
  obtain ⟨k, as, ks⟩ := n
  rw [node_mk] at hA hV ⊢
  cases k <;> try rfl
  case sExpr semi =>
    match ks with
    | [] => rfl
    | [e] =>
      simp only [nodes_cons, nodes_nil, Respelling.kind, vsVisitStmt, vsVisitExpr_pair h ht hh hrec]
      simp [pair, Respelling.kind]
    | _ :: _ :: _ => rfl
  case sLocal p =>
    unfold vsVisitStmt
    simp only [Respelling.kind] at hA hV ⊢
    rw [hA, hV]
    cases hf : (Node.mk (.sLocal p) as ks).findRemoveAttr NAME with
    | none => rfl
    | some r =>
      obtain ⟨a, n⟩ := r
      simp only [Option.map_some, attr_form (ρ := ρ) (findRemoveAttr_is hf)]
      have hS : ∀ toks,
          (let m := (cx ρ A T c).makeChild (env'.hash (ρ.node n)) (ρ.toks toks)
            let w := visitLocal rec' vk sc m.1 (ρ.node n)
            match m.2 with
            | .error e => (w.1.error e, w.2)
            | .ok child =>
              let r := expandParentStmt env' rec' child w.2
              (w.1.joinChild r.1, r.2)) =
          pair ρ A T (let m := c.makeChild (env.hash n) toks
            let w := visitLocal rec vk sc m.1 n
            match m.2 with
            | .error e => (w.1.error e, w.2)
            | .ok child =>
              let r := expandParentStmt env rec child w.2
              (w.1.joinChild r.1, r.2)) := by
        intro toks
        simp only [makeChild_cx h (hh n)]
        generalize c.makeChild (env.hash n) toks = m
        obtain ⟨c1, e⟩ := m
        dsimp only
        rw [visitLocal_pair h hrec]
        generalize visitLocal rec vk sc c1 n = w
        obtain ⟨c2, n2⟩ := w
        cases e with
        | error e => simp only [res, pair, error_err]
        | ok child =>
          simp only [res, pair, expandParentStmt_pair h ht hrec, joinChild_cx]
      cases a.form with
      | path => exact hS []
      | list toks => exact hS toks
      | nameValue =>
        simp only [visitLocal_pair h hrec, pair, error_cx (ρ := ρ) (e := .expectedList) _ rfl]

theorem visitReturn_pair (sc : Scope) (c : Cx) (n : Node) :
    visitReturn sc (cx ρ A T c) (ρ.node n) = pair ρ A T (visitReturn sc c n) := by
  unfold visitReturn
  rw [anyEmptyAttr_node _ known_never]
  split
  · obtain ⟨k, as, ks⟩ := n
    rw [node_mk]
    cases k <;> try rfl
    case eReturn =>
      simp only [Respelling.kind, replaceBoxed_pair h]
      simp [pair, pairL, Respelling.kind]
  · rfl

theorem tryArms_nodes (e : Node) : ρ.nodes (tryArms e) = tryArms (ρ.node e) := by
  have k := fun x hx => (h.known x hx x).mpr rfl
  simp [tryArms, Respelling.kind, Respelling.path, Path.ofIdents, h.vars.1, h.written _ (List.mem_cons_self ..),
    h.written _ (List.mem_cons_of_mem _ (List.mem_cons_self ..)), k "core" (by simp), k "result" (by simp),
    k "Result" (by simp), k "Err" (by simp)]

theorem visitTry_pair (sc : Scope) (c : Cx) (n : Node) :
    visitTry sc (cx ρ A T c) (ρ.node n) = pair ρ A T (visitTry sc c n) := by
  unfold visitTry
  rw [anyEmptyAttr_node _ known_never]
  split
  · obtain ⟨k, as, ks⟩ := n
    rw [node_mk]
    cases k <;> try rfl
    case eTry =>
      match ks with
      | [] => rfl
      | [e] =>
        simp only [nodes_cons, nodes_nil, Respelling.kind, isMarkerExpr_node h]
        split
        · simp [pair, Respelling.kind]
        · have := nextExpr_pair (A := A) (T := T) h c (pathE (.ofIdents ["err"]))
          rw [pathE_node, ofIdents_path] at this
          simp only [List.map_cons, List.map_nil, h.vars.2] at this
          simp only [this]
          simp [pair, Respelling.kind, tryArms_nodes h]
      | _ :: _ :: _ => rfl
  · rfl

theorem visitMarker_pair (sc : Scope) (c : Cx) (n : Node) :
    visitMarker sc (cx ρ A T c) (ρ.node n) = pair ρ A T (visitMarker sc c n) := by
  have h1 : ((cx ρ A T c).marker != DEFAULT_MARKER) = (c.marker != DEFAULT_MARKER) := marker_cx h c
  unfold visitMarker
  rw [h1, assert_cx]
  generalize c.assert (!sc.foreign || c.marker != DEFAULT_MARKER) .markerForeign = c
  obtain ⟨k, as, ks⟩ := n
  rw [node_mk]
  cases k <;> try rfl
  case eMacro p t =>
    simp only [Respelling.kind]
    have h2 : (cx ρ A T c).isMarkerExact (ρ.macPath p) = c.isMarkerExact p := isMarkerExact_cx h c p
    have h3 : (cx ρ A T c).hasError = c.hasError := hasError_cx c
    have h4 : ρ.node failedMarker = failedMarker := by
      simp [failedMarker, Respelling.kind, Respelling.macPath, Path.ofIdents,
        h.knownMacros "compile_error" (by simp), h.written "#[auto_enum] failed to generate error message" (by simp)]
    rw [h2]
    split
    · match ks with
      | [] => simp [pair, error_cx (ρ := ρ) (e := .markerParse) _ rfl, h4]
      | [e] =>
        simp only [nodes_cons, nodes_nil, h3]
        split
        · rfl
        · exact nextExprAttrs_pair h c as e
      | _ :: _ :: _ => simp [pair, error_cx (ρ := ρ) (e := .markerParse) _ rfl, h4]
    · simp [pair, Respelling.kind]

theorem visitMode_pair (sc : Scope) (c : Cx) (n : Node) :
    visitMode sc (cx ρ A T c) (ρ.node n) = pair ρ A T (visitMode sc c n) := by
  unfold visitMode
  have h1 : (cx ρ A T c).mode = c.mode := rfl
  rw [h1]
  cases c.mode with
  | ret m => exact visitReturn_pair h sc c n
  | try_ => exact visitTry_pair h sc c n
  | default => rfl

include ht hh hrec in
theorem visitExpr_pair (sc : Scope) (c : Cx) (n : Node) (semi : Bool) :
    visitExpr env' rec' sc (cx ρ A T c) (ρ.node n) semi = pair ρ A T (visitExpr env rec sc c n semi) := by
  unfold visitExpr
  have h1 : (cx ρ A T c).assert (!(cx ρ A T c).hasError) .visitAfterError = cx ρ A T (c.assert (!c.hasError) .visitAfterError) := by
    rw [hasError_cx, assert_cx]
  have h2 : ∀ (b : Bool) (c : Cx), (if b = true then { cx ρ A T c with hasChild := true } else cx ρ A T c) =
      cx ρ A T (if b = true then { c with hasChild := true } else c) := by intro b c; cases b <;> rfl
  have h3 : ∀ sc : Scope, sc.check (ρ.kind n.kind) = sc.check n.kind := by
    intro sc; cases n.kind <;> rfl
  simp only [h1, anyAttr_node _ known_name, kind_node, h3, h2]
  generalize (if n.anyAttr NAME = true then { c.assert (!c.hasError) .visitAfterError with hasChild := true }
    else c.assert (!c.hasError) .visitAfterError) = c
  generalize ((if n.anyAttr NAME = true then { sc with foreign := true } else sc).check n.kind) = sc
  rw [visitMode_pair h]
  generalize visitMode sc c n = r
  have hT : ∀ r : Cx × Node,
      (let r := vsVisitExpr env' rec' .visitor sc (pair ρ A T r).1 (pair ρ A T r).2 semi
        if !sc.foreign || r.1.marker != DEFAULT_MARKER then
          let r := visitMarker sc r.1 r.2
          findRemoveAttrs sc r.1 r.2
        else r) =
      pair ρ A T (let r := vsVisitExpr env rec .visitor sc r.1 r.2 semi
        if !sc.foreign || r.1.marker != DEFAULT_MARKER then
          let r := visitMarker sc r.1 r.2
          findRemoveAttrs sc r.1 r.2
        else r) := by
    intro r
    simp only [pair, vsVisitExpr_pair h ht hh hrec]
    generalize vsVisitExpr env rec .visitor sc r.1 r.2 semi = r
    have h5 : ((cx ρ A T r.1).marker != DEFAULT_MARKER) = (r.1.marker != DEFAULT_MARKER) := marker_cx h r.1
    rw [h5]
    split
    · rw [visitMarker_pair h]
      exact findRemoveAttrs_pair sc _ _
    · rfl
  by_cases hf : sc.foreign = true
  · simp only [hf, if_true] at hT ⊢
    exact hT r
  · simp only [hf, if_false, Bool.false_eq_true] at hT ⊢
    have hA := findRemoveAttr (ρ := ρ) r.2 known_nested
    have hA' : (pair ρ A T r).2.findRemoveAttr NESTED = _ := hA
    rw [hA']
    cases r.2.findRemoveAttr NESTED with
    | none => exact hT r
    | some x =>
      obtain ⟨a, n⟩ := x
      simp only [Option.map_some]
      have : visitNested sc (pair ρ A T r).1 (ρ.node n) (ρ.attr a) = pair ρ A T (visitNested sc r.1 n a) :=
        visitNested_pair h sc r.1 n a
      rw [this]
      exact hT _

include hrec in
theorem visitArm_pair (sc : Scope) (c : Cx) (n : Node) :
    visitArm rec' sc (cx ρ A T c) (ρ.node n) = pair ρ A T (visitArm rec sc c n) := by
  unfold visitArm
  have h1 : (cx ρ A T c).hasError = c.hasError := hasError_cx c
  rw [h1]
  split
  · rfl
  · have h2 : ∀ r : Cx × Node,
        (let w := walk (rec' .visitor sc) (pair ρ A T r).1 (pair ρ A T r).2; findRemoveAttrs sc w.1 w.2) =
        pair ρ A T (let w := walk (rec .visitor sc) r.1 r.2; findRemoveAttrs sc w.1 w.2) := by
      intro r
      simp only [pair]
      rw [walk_pair (hrec .visitor sc)]
      exact findRemoveAttrs_pair sc _ _
    split
    · exact h2 (c, n)
    · rw [findRemoveAttr _ known_nested]
      cases n.findRemoveAttr NESTED with
      | none => exact h2 (c, n)
      | some r =>
        obtain ⟨a, k, as, ks⟩ := r
        simp only [Option.map_some, node_mk]
        cases k <;> try (exact h2 (c, .mk _ as ks))
        case arm p =>
          match ks with
          | [] => exact h2 (c, .mk (.arm p) as [])
          | [b] =>
            simp only [nodes_cons, nodes_nil, Respelling.kind, visitNested_pair h]
            have := h2 ((visitNested sc c b a).1, .mk (.arm p) as [(visitNested sc c b a).2])
            simp only [pair, node_mk, nodes_cons, nodes_nil, Respelling.kind] at this
            exact this
          | [g, b] =>
            simp only [nodes_cons, nodes_nil, Respelling.kind, visitNested_pair h]
            have := h2 ((visitNested sc c b a).1, .mk (.arm p) as [g, (visitNested sc c b a).2])
            simp only [pair, node_mk, nodes_cons, nodes_nil, Respelling.kind] at this
            exact this
          | x :: y :: z :: l => exact h2 (c, .mk (.arm p) as (x :: y :: z :: l))

include ht hh hrec in
theorem visitStmt_pair (sc : Scope) (c : Cx) (n : Node) :
    visitStmt env' rec' sc (cx ρ A T c) (ρ.node n) = pair ρ A T (visitStmt env rec sc c n) := by
  have hs : ∀ (b : Bool), (if b = true then { cx ρ A T c with hasChild := true } else cx ρ A T c) =
      cx ρ A T (if b = true then { c with hasChild := true } else c) := by intro b; cases b <;> rfl
  have hV : (let isName := (ρ.node n).anyAttr NAME
      let sc := if isName then { sc with foreign := true } else sc
      let cx := if isName then { cx ρ A T c with hasChild := true } else cx ρ A T c
      vsVisitStmt env' rec' .visitor sc cx (ρ.node n)) = pair ρ A T (let isName := n.anyAttr NAME
      let sc := if isName then { sc with foreign := true } else sc
      let cx := if isName then { c with hasChild := true } else c
      vsVisitStmt env rec .visitor sc cx n) := by
    simp only [anyAttr_node _ known_name, hs]
    exact vsVisitStmt_pair h ht hh hrec .visitor _ _ n
  have h1 : (cx ρ A T c).hasError = c.hasError := hasError_cx c
  unfold visitStmt
  rw [h1]
  split
  · rfl
  · obtain ⟨k, as, ks⟩ := n
    rw [node_mk] at hV ⊢
    cases k <;> try exact hV
    case sExpr semi =>
      match ks, hV with
      | [], hV => exact hV
      | [e], _ =>
        simp only [nodes_cons, nodes_nil, Respelling.kind, visitExpr_pair h ht hh hrec]
        simp [pair, Respelling.kind]
      | _ :: _ :: _, hV => exact hV

include ht hh hrec in
theorem visitorStep_pair (sc : Scope) (c : Cx) (n : Node) :
    visitorStep env' rec' sc (cx ρ A T c) (ρ.node n) = pair ρ A T (visitorStep env rec sc c n) := by
  unfold visitorStep
  rw [kind_node, isExpr, isStmt]
  have h1 : (cx ρ A T c).hasError = c.hasError := hasError_cx c
  rw [h1]
  split
  · split
    · rfl
    · exact visitExpr_pair h ht hh hrec sc c n false
  · split
    · exact visitStmt_pair h ht hh hrec sc c n
    · have hw := walk_pair (A := A) (T := T) (hrec .visitor sc) c n
      have ha := visitArm_pair (A := A) (T := T) h hrec sc c n
      cases n.kind <;> first | exact hw | exact ha

include ht hh hrec in
theorem dummyStep_pair (sc : Scope) (c : Cx) (n : Node) :
    dummyStep env' rec' sc (cx ρ A T c) (ρ.node n) = pair ρ A T (dummyStep env rec sc c n) := by
  have hs : ∀ (b : Bool), (if b = true then { cx ρ A T c with hasChild := true } else cx ρ A T c) =
      cx ρ A T (if b = true then { c with hasChild := true } else c) := by intro b; cases b <;> rfl
  unfold dummyStep
  rw [kind_node, isExpr, isStmt, anyAttr_node _ known_name]
  have h1 : (cx ρ A T c).hasError = c.hasError := hasError_cx c
  rw [h1]
  simp only [hs]
  split
  · split
    · rfl
    · exact vsVisitExpr_pair h ht hh hrec .dummy sc _ n false
  · split
    · split
      · rfl
      · exact vsVisitStmt_pair h ht hh hrec .dummy sc _ n
    · exact walk_pair (hrec .dummy sc) c n

include ht hh in
theorem visit_pair : ∀ (f : Nat) ⦃A T : List Path → List Path⦄ (vk : VK) (sc : Scope) (c : Cx) (n : Node),
    visit env' f vk sc (cx ρ A T c) (ρ.node n) = pair ρ A T (visit env f vk sc c n)
  | 0, _, _, _, _, _, _ => rfl
  | f + 1, _, _, .visitor, sc, c, n => visitorStep_pair h ht hh (visit_pair f) sc c n
  | f + 1, _, _, .dummy, sc, c, n => dummyStep_pair h ht hh (visit_pair f) sc c n

omit h in
theorem finish_pair (r : Cx × Node) : finish (pair ρ A T r) = ρ.output (finish r) := by
  have h1 : (cx ρ A T r.1).panics = r.1.panics := rfl
  have h2 : (cx ρ A T r.1).errs = r.1.errs.map ρ.err := rfl
  unfold finish
  simp only [pair, h1, h2, List.isEmpty_map]
  split
  · split <;> rfl
  · rfl

include ht hh in
theorem autoEnum_respelled {g g' : Nat} (hg : ρ.ident (enumIdent g) = enumIdent g') (fuel : Nat) (toks : List Tok)
    (input : Input) :
    autoEnum env' fuel g' (ρ.toks toks) (ρ.input input) = ρ.output (autoEnum env fuel g toks input) := by
  unfold autoEnum
  have hn := new_cx h hg toks true [] []
  rw [List.map_nil, List.map_nil] at hn
  rw [hn]
  cases Cx.new g toks true [] [] with
  | error e => rfl
  | ok c =>
    simp only [res]
    have hv := visit_pair h ht hh fuel
    cases input with
    | invalid => rfl
    | stmt n =>
      simp only [Respelling.input, expandInput, expandParentStmt_pair h ht hv]
      exact finish_pair _
    | expr n =>
      simp only [Respelling.input, expandInput, expandParentExpr_pair h ht hv]
      exact finish_pair _

end

end

end Rename

end AutoEnums
