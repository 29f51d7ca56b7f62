import Verif.Spec.Traits
import Verif.Lemmas.Rename
import Verif.Lemmas.Args
import Verif.Lemmas.Scope

/-! # Lemmas: the requested traits do not influence the expansion -/

namespace AutoEnums

open Spec

namespace Traits

/-- Nothing is replaced. -/
def same : Respelling := ⟨id, id, id, id, fun a => [a]⟩

theorem same_path (p : Path) : same.path p = p := by
  obtain ⟨l, ss⟩ := p
  simp only [Respelling.path, same, id]
  congr
  induction ss with
  | nil => rfl
  | cons s ss ih => rw [List.map_cons, ih]; obtain ⟨i, _ | a⟩ := s <;> rfl

theorem same_macPath (p : Path) : same.macPath p = p := by
  unfold Respelling.macPath
  split <;> rfl

theorem same_toks : ∀ l : List Tok, same.toks l = l
  | [] => by rw [Respelling.toks]
  | t :: l => by
    by_cases ht : ∃ m l', t = .ident "marker" ∧ l = .eq :: .ident m :: l'
    · obtain ⟨m, l', rfl, rfl⟩ := ht
      rw [Respelling.toks, same_toks l']
      rfl
    · rw [Rename.toks_cons fun m l' e => ht ⟨m, l', e⟩, same_toks l]

theorem same_attr (a : Attr) : same.attr a = a := by
  obtain ⟨p, f⟩ := a
  cases f <;> simp only [Respelling.attr] <;> split <;> simp_all [same_toks]

theorem same_err (e : Err) : same.err e = e := by cases e <;> rfl

theorem same_attrs (as : List Attr) : same.attrs as = as := Rename.attrs_id same_attr rfl as

theorem same_errs (es : List Err) : es.map same.err = es := by
  calc es.map same.err = es.map id := List.map_congr_left fun a _ => same_err a
    _ = es := List.map_id es

theorem same_kind (k : Kind) : same.kind k = k := by
  have hl : ∀ o : Option String, o.map same.label = o := fun o => by cases o <;> rfl
  cases k <;> simp only [Respelling.kind, hl, same_path, same_macPath] <;> try rfl
  case sLocal p => cases p <;> rfl
  case sItem i => cases i <;> rfl

theorem same_node : ∀ n : Node, same.node n = n := by
  refine Node.ind ?_
  intro k as ks ih
  rw [Rename.node_mk, same_kind, same_attrs, Rename.nodes_map]
  congr 1
  calc ks.map same.node = ks.map id := List.map_congr_left ih
    _ = ks := List.map_id ks

theorem same_nodes (l : List Node) : same.nodes l = l := by
  rw [Rename.nodes_map]
  calc l.map same.node = l.map id := List.map_congr_left fun n _ => same_node n
    _ = l := List.map_id l

theorem same_harmless : same.Harmless where
  labels _ _ h := h
  macros _ _ h := h
  knownMacros _ _ := rfl
  known _ _ _ := Iff.rfl
  vars := ⟨rfl, rfl⟩
  variants _ := rfl
  written _ _ := rfl

/-- The context with other traits. -/
def re (a t : List Path) (c : Cx) : Cx := { c with args := a, traits := t }

theorem re_cx (a t : List Path) (c : Cx) : re a t c = Rename.cx same (fun _ => a) (fun _ => t) c := by
  have h : ∀ l : List String, l.map same.mac = l := fun l => List.map_id l
  simp only [Rename.cx, same_errs, h]
  rfl

theorem childExpr_re (a t : List Path) (c : Cx) (n : Node) :
    childExpr (re a t c) n = (re a t (childExpr c n).1, (childExpr c n).2) := by
  have := Rename.childExpr_pair (A := fun _ => a) (T := fun _ => t) same_harmless c n
  rw [same_node] at this
  rw [re_cx, this, Rename.pair, same_node, ← re_cx]

theorem childLast_re (a t : List Path) (c : Cx) (l : List Node) :
    childLast (re a t c) l = (re a t (childLast c l).1, (childLast c l).2) := by
  have := Rename.childLast_pair (A := fun _ => a) (T := fun _ => t) same_harmless c l
  rw [same_nodes] at this
  rw [re_cx, this, Rename.pairL, same_nodes, ← re_cx]

theorem visit_re (env : Env) (f : Nat) (a t : List Path) (vk : VK) (sc : Scope) (c : Cx) (n : Node) :
    visit env f vk sc (re a t c) n = (re a t (visit env f vk sc c n).1, (visit env f vk sc c n).2) := by
  have := Rename.visit_pair (ρ := same) (env := env) (env' := env) same_harmless rfl
    (fun n => by rw [same_node]; rfl) f (A := fun _ => a) (T := fun _ => t) vk sc c n
  rw [same_node] at this
  rw [re_cx, this, Rename.pair, same_node, ← re_cx]

theorem walk_re (env : Env) (f : Nat) (a t : List Path) (vk : VK) (sc : Scope) (c : Cx) (n : Node) :
    walk (visit env f vk sc) (re a t c) n =
      (re a t (walk (visit env f vk sc) c n).1, (walk (visit env f vk sc) c n).2) := by
  have := Rename.walk_pair (ρ := same) (A := fun _ => a) (T := fun _ => t) (f := visit env f vk sc)
    (g := visit env f vk sc) (Rename.visit_pair (ρ := same) (env := env) (env' := env) same_harmless rfl
      (fun n => by rw [same_node]; rfl) f vk sc) c n
  rw [same_node] at this
  rw [re_cx, this, Rename.pair, same_node, ← re_cx]

theorem visitFn_re (a t : List Path) (c : Cx) (n : Node) : visitFn (re a t c) n = visitFn c n := by
  have := Rename.fnCount_node (A := fun _ => a) (T := fun _ => t) same_harmless c false n
  rw [same_node, ← re_cx] at this
  exact this

theorem re_self (c : Cx) : re c.args c.traits c = c := rfl

theorem childExpr_args (c : Cx) (n : Node) : (childExpr c n).1.args = c.args := by
  have := childExpr_re c.args c.traits c n
  rw [re_self] at this
  exact congrArg (·.1.args) this

theorem childLast_args (c : Cx) (l : List Node) : (childLast c l).1.args = c.args := by
  have := childLast_re c.args c.traits c l
  rw [re_self] at this
  exact congrArg (·.1.args) this

theorem no_exit (env : Env) {c : Cx} (h : c.args ≠ []) : c.analysisExit env = false := by
  unfold Cx.analysisExit
  cases hm : c.mode <;> simp [h]

theorem no_dummy {c : Cx} (h : c.args ≠ []) : c.isDummy = false := by
  simp [Cx.isDummy, h]

variable {env : Env} {f : Nat} {a t : List Path} (ha : a ≠ [])

include ha in
theorem expandTarget_re {c : Cx} (hc : c.args ≠ []) (n : Node) :
    expandTarget env (visit env f) (re a t c) n =
      (re a t (expandTarget env (visit env f) c n).1, (expandTarget env (visit env f) c n).2) := by
  unfold expandTarget
  rw [childExpr_re]
  dsimp only
  have h1 : (re a t (childExpr c n).1).analysisExit env = false := no_exit env ha
  have h2 : (childExpr c n).1.analysisExit env = false := no_exit env (by rw [childExpr_args]; exact hc)
  rw [h1, h2]
  exact visit_re env f a t _ _ _ _

include ha in
theorem expandExpr_re {c : Cx} (hc : c.args ≠ []) (n : Node) :
    expandExpr env (visit env f) (re a t c) n =
      (re a t (expandExpr env (visit env f) c n).1, (expandExpr env (visit env f) c n).2) := by
  unfold expandExpr
  split
  · rename_i i as body
    rw [visitFn_re]
    have hv : (re a t c).visitLast = c.visitLast := rfl
    rw [hv]
    split
    · have := expandTarget_re (env := env) (f := f) (a := a) (t := t) ha
        (c := { c with mode := if (visitFn c body).try_ ≥ 2 then .try_ else .ret (visitFn c body).return_ })
        hc body
      simp only [re] at this ⊢
      simp only [this]
    · exact expandTarget_re ha hc _
  · exact expandTarget_re ha hc _

theorem hide_mk (en : Ident) (k : Kind) (as : List Attr) (ks : List Node) (hk : ∀ i, k ≠ .sItem i) :
    hideTraits en (.mk k as ks) = .mk k as (hideTraitsL en ks) := by
  cases k <;> first | rfl | exact absurd rfl (hk _)

theorem hide_build (a t : List Path) (c : Cx) :
    hideTraits c.ident (re a t c).buildEnum = hideTraits c.ident c.buildEnum := by
  simp [Cx.buildEnum, re, hideTraits]

/-- The outcomes agree up to the traits. -/
structure Veiled (en : Ident) (r s : Cx × Node) : Prop where
  errs : s.1.errs = r.1.errs
  panics : s.1.panics = r.1.panics
  code : hideTraits en s.2 = hideTraits en r.2

theorem build_re (a t : List Path) (c : Cx) : (re a t c).build =
    (re a t c.build.1, c.build.2.map fun _ => (re a t c).buildEnum) := by
  unfold Cx.build
  have h1 : (re a t c).hasError = c.hasError := rfl
  have h2 : (re a t c).variants = c.variants := rfl
  have h3 : (re a t c).hasChild = c.hasChild := rfl
  have h4 : (re a t c).lastMode = c.lastMode := rfl
  rw [h1, h2, h3, h4]
  split
  · rfl
  · split
    · rfl
    · split <;> rfl

theorem build_item {c : Cx} {item : Node} (h : c.build.2 = some item) : item = c.buildEnum := by
  unfold Cx.build at h
  split at h
  · cases h
  · split at h
    · cases h
    · split at h
      · cases h
      · cases h; rfl

theorem expandExpr_ident (env : Env) (f : Nat) {c : Cx} (hm : c.mode = .default) (n : Node) :
    (expandExpr env (visit env f) c n).1.ident = c.ident := by
  obtain ⟨c0, h1, h2⟩ := expandExpr_tr (visit_good env f) c n hm
  exact h2.grows'.1.trans h1.ident

include ha in
theorem expandBuild_re {c : Cx} (hc : c.args ≠ []) (hm : c.mode = .default) (n : Node) :
    Veiled c.ident (expandBuild env (visit env f) c n) (expandBuild env (visit env f) (re a t c) n) := by
  have hid := expandExpr_ident env f hm n
  unfold expandBuild
  rw [expandExpr_re ha hc]
  dsimp only
  generalize expandExpr env (visit env f) c n = r at hid ⊢
  rw [build_re]
  have hb := fun item => build_item (c := r.1) (item := item)
  generalize hg : r.1.build = b at hb ⊢
  obtain ⟨b, o⟩ := b
  cases o with
  | none => exact ⟨rfl, rfl, rfl⟩
  | some item =>
    refine ⟨rfl, rfl, ?_⟩
    have := hide_build a t r.1
    rw [← hb item rfl, hid] at this
    show hideTraits _ (buildExpr (re a t r.1).buildEnum r.2) = hideTraits _ (buildExpr item r.2)
    simp only [buildExpr, exprBlock, hideTraits, hideTraitsL, this]

include ha in
theorem expandParentExpr_re {c : Cx} (hc : c.args ≠ []) (hm : c.mode = .default) (n : Node) (semi : Bool) :
    Veiled c.ident (expandParentExpr env (visit env f) c n semi)
      (expandParentExpr env (visit env f) (re a t c) n semi) := by
  unfold expandParentExpr
  cases semi
  · simp only [Bool.false_eq_true, if_false]
    rw [no_dummy hc, no_dummy (c := re a t c) ha]
    exact expandBuild_re ha hc hm n
  · simp only [if_true]
    rw [no_dummy (c := { c with lastMode := .never }) hc,
      no_dummy (c := { re a t c with lastMode := .never }) ha]
    exact expandBuild_re (c := { c with lastMode := .never }) ha hc hm n

include ha in
theorem expandParentLocal_re {c : Cx} (hc : c.args ≠ []) (hm : c.mode = .default) (pat : LetPat)
    (hp : env.typeAnalysis = true → ∀ s ty, pat ≠ .typed s ty) (as : List Attr) (ks : List Node) :
    Veiled c.ident (expandParentLocal env (visit env f) c pat as ks)
      (expandParentLocal env (visit env f) (re a t c) pat as ks) := by
  have hl : ∀ c, localAnalysis env c pat = (c, pat) := by
    intro c
    unfold localAnalysis
    split
    · rename_i h
      split
      · exact absurd rfl (hp h _ _)
      · rfl
    · rfl
  unfold expandParentLocal
  rw [hl, hl]
  dsimp only
  rw [no_dummy hc, no_dummy (c := re a t c) ha]
  simp only [Bool.false_eq_true, if_false]
  cases ks with
  | nil => exact ⟨rfl, rfl, rfl⟩
  | cons e els =>
    have := expandBuild_re (env := env) (f := f) (t := t) ha hc hm e
    exact ⟨this.errs, this.panics, by simp only [hideTraits, hideTraitsL, this.code]⟩

theorem fnAnalysis_re (a t : List Path) (c : Cx) (ret : Option Ty) (b : Node) : ∃ t',
    fnAnalysis env (re a t c) ret b = re a t' (fnAnalysis env c ret b) := by
  unfold fnAnalysis
  cases ret with
  | none => exact ⟨t, rfl⟩
  | some ty =>
    have hr : retMode (re a t c) ty b = retMode c ty b := by
      unfold retMode
      rw [visitFn_re]
      rfl
    dsimp only
    rw [hr]
    split
    · exact ⟨_, rfl⟩
    · exact ⟨t, rfl⟩

theorem fnAnalysis_args (c : Cx) (ret : Option Ty) (b : Node) :
    (fnAnalysis env c ret b).args = c.args ∧ (fnAnalysis env c ret b).ident = c.ident ∧
      (fnAnalysis env c ret b).lastMode = c.lastMode := by
  unfold fnAnalysis
  cases ret with
  | none => exact ⟨rfl, rfl, rfl⟩
  | some ty =>
    dsimp only
    split <;> exact ⟨rfl, rfl, rfl⟩

include ha in
theorem expandParentFn_re {c : Cx} (hc : c.args ≠ []) (hl : c.lastMode = .default) (name : String)
    (ret : Option Ty) (as asb : List Attr) (ss : List Node) :
    Veiled c.ident (expandParentFn env (visit env f) c name ret as asb ss)
      (expandParentFn env (visit env f) (re a t c) name ret as asb ss) := by
  unfold expandParentFn
  obtain ⟨t', ht⟩ := fnAnalysis_re (env := env) a t c ret (.mk .block asb ss)
  obtain ⟨h1, h2, h3⟩ := fnAnalysis_args (env := env) c ret (.mk .block asb ss)
  dsimp only
  rw [ht]
  generalize fnAnalysis env c ret (.mk .block asb ss) = d at h1 h2 h3 ⊢
  rw [no_dummy (c := d) (by rw [h1]; exact hc), no_dummy (c := re a t' d) ha]
  simp only [Bool.false_eq_true, if_false]
  have key : ∀ (d : Cx) (ss : List Node), d.args ≠ [] → d.lastMode = .default →
      (walk (visit env f .visitor {}) d (.mk (.iFn name ret) as [.mk .block asb ss])).1.ident = d.ident := by
    intro d ss _ h3
    have := walk_tr (visit_good env f) .visitor {} d (.mk (.iFn name ret) as [.mk .block asb ss])
      (fun _ h => by rw [h3] at h; cases h)
    exact this.grows'.1
  have hr : (if ss.isEmpty then ((re a t' d).error .emptyFn, ss) else childLast (re a t' d) ss) =
      (re a t' (if ss.isEmpty then (d.error .emptyFn, ss) else childLast d ss).1,
        (if ss.isEmpty then (d.error .emptyFn, ss) else childLast d ss).2) := by
    split
    · rfl
    · exact childLast_re ..
  have hi : (if ss.isEmpty then (d.error .emptyFn, ss) else childLast d ss).1.ident = d.ident ∧
      (if ss.isEmpty then (d.error .emptyFn, ss) else childLast d ss).1.args = d.args ∧
      (if ss.isEmpty then (d.error .emptyFn, ss) else childLast d ss).1.lastMode = d.lastMode := by
    split
    · exact ⟨rfl, rfl, rfl⟩
    · have := childLast_tr (env := env) (k := .block) rfl asb ss (fun m _ cx => childExpr_tr m cx) d ss []
        (fun _ h => h)
      exact ⟨this.grows'.1, childLast_args d ss, this.modes.2⟩
  rw [hr]
  generalize (if ss.isEmpty then (d.error .emptyFn, ss) else childLast d ss) = r at hi ⊢
  obtain ⟨r, ss'⟩ := r
  dsimp only at hi ⊢
  have hra : r.args ≠ [] := by rw [hi.2.1, h1]; exact hc
  have hwi := key r ss' hra (by rw [hi.2.2, h3]; exact hl)
  rw [no_exit env hra, no_exit env (c := re a t' r) ha]
  simp only [Bool.false_eq_true, if_false]
  rw [walk_re]
  generalize walk (visit env f .visitor {}) r (.mk (.iFn name ret) as [.mk .block asb ss']) = w at hwi ⊢
  obtain ⟨w, n⟩ := w
  dsimp only at hwi ⊢
  rw [build_re]
  have hb := fun item => build_item (c := w) (item := item)
  generalize hg : w.build = b at hb ⊢
  obtain ⟨b, o⟩ := b
  cases o with
  | none => exact ⟨rfl, rfl, rfl⟩
  | some item =>
    have := hide_build a t' w
    rw [← hb item rfl, hwi, hi.1, h2] at this
    dsimp only [Option.map]
    split
    · rename_i h
      simp only [Prod.mk.injEq, Option.some.injEq] at h
      obtain ⟨⟨rfl, rfl⟩, rfl⟩ := h
      refine ⟨rfl, rfl, ?_⟩
      simp only [hideTraits, hideTraitsL, this]
    · rename_i heq hno
      obtain ⟨rfl, rfl⟩ := Prod.mk.inj heq
      split
      · exact absurd rfl (hno _ _ _ _ _ rfl)
      · rename_i heq' _
        obtain ⟨rfl, rfl⟩ := Prod.mk.inj heq'
        exact ⟨rfl, rfl, rfl⟩

include ha in
theorem expandParentStmt_re {c : Cx} (hc : c.args ≠ []) (hm : c.mode = .default) (hl : c.lastMode = .default)
    (n : Node) (hn : env.typeAnalysis = true → annotatedLet (.stmt n) = false) :
    Veiled c.ident (expandParentStmt env (visit env f) c n)
      (expandParentStmt env (visit env f) (re a t c) n) := by
  unfold expandParentStmt
  split
  · have := expandParentExpr_re (env := env) (f := f) (t := t) ha hc hm
    rename_i semi as e
    exact ⟨(this e semi).errs, (this e semi).panics, by simp only [hideTraits, hideTraitsL, (this e semi).code]⟩
  · refine expandParentLocal_re ha hc hm _ ?_ _ _
    rintro h s ty rfl
    exact absurd (hn h) (by simp [annotatedLet])
  · exact expandParentFn_re ha hc hl _ _ _ _ _
  · exact ⟨rfl, rfl, rfl⟩
  · exact ⟨rfl, rfl, rfl⟩

theorem finish_veiled {en : Ident} {r s : Cx × Node} (h : Veiled en r s) :
    hideTraitsOut en (finish s) = hideTraitsOut en (finish r) := by
  unfold finish
  rw [h.panics, h.errs]
  split
  · split
    · exact congrArg Output.code h.code
    · rfl
  · rfl

theorem autoEnum_re {en : Ident} {c : Cx} (ha : a ≠ []) (hc : c.args ≠ []) (hm : c.mode = .default)
    (hl : c.lastMode = .default) (hen : c.ident = en) (input : Input)
    (hi : env.typeAnalysis = true → annotatedLet input = false) :
    hideTraitsOut en (match expandInput env f (re a t c) input with
      | some r => finish r
      | none => .errors [.inputParse, .badTarget]) =
    hideTraitsOut en (match expandInput env f c input with
      | some r => finish r
      | none => .errors [.inputParse, .badTarget]) := by
  subst hen
  cases input with
  | stmt n => exact finish_veiled (expandParentStmt_re ha hc hm hl n hi)
  | expr n => exact finish_veiled (expandParentExpr_re ha hc hm n false)
  | invalid => rfl

theorem autoEnum_traits {fuel h : Nat} {toks toks' : List Tok} {traits traits' : List Path}
    {marker : Option Ident} (h1 : IsArgs toks traits marker) (h2 : IsArgs toks' traits' marker)
    (h3 : traits ≠ []) (h4 : traits' ≠ []) (input : Input)
    (hi : env.typeAnalysis = true → annotatedLet input = false) :
    hideTraitsOut (enumIdent h) (autoEnum env fuel h toks' input) =
      hideTraitsOut (enumIdent h) (autoEnum env fuel h toks input) := by
  unfold autoEnum Cx.new
  rw [(parseArgs_iff toks traits marker).mpr h1, (parseArgs_iff toks' traits' marker).mpr h2]
  let c (m : String) : Cx :=
    { ident := enumIdent h, variants := [], marker := m, markers := [] ++ [m], root := true,
      hasChild := false, mode := .default, lastMode := .default, errs := [], args := traits,
      traits := [], panics := [], log := [] }
  cases marker with
  | none => exact autoEnum_re (c := c DEFAULT_MARKER) (t := []) h4 h3 rfl rfl rfl input hi
  | some m => exact autoEnum_re (c := c m) (t := []) h4 h3 rfl rfl rfl input hi

/-! ## With annotations -/

/-- The outcomes agree up to the traits and the type of the `let`. -/
structure Loose (en : Ident) (r s : Cx × Node) : Prop where
  errs : s.1.errs = r.1.errs
  panics : s.1.panics = r.1.panics
  code : dropType (hideTraits en s.2) = dropType (hideTraits en r.2)

theorem Veiled.loose {en : Ident} {r s : Cx × Node} (h : Veiled en r s) : Loose en r s :=
  ⟨h.errs, h.panics, congrArg dropType h.code⟩

theorem localAnalysis_re (a t : List Path) (c : Cx) (pat : LetPat) : ∃ t' t'',
    (localAnalysis env c pat).1 = re c.args t'' c ∧
    (localAnalysis env (re a t c) pat).1 = re a t' c ∧
    ∀ as ks, dropType (.mk (.sLocal (localAnalysis env (re a t c) pat).2) as ks) =
      dropType (.mk (.sLocal (localAnalysis env c pat).2) as ks) := by
  unfold localAnalysis
  split
  · split
    · refine ⟨_, _, rfl, rfl, fun as ks => ?_⟩
      dsimp only
      split <;> split <;> rfl
    · exact ⟨t, c.traits, rfl, rfl, fun _ _ => rfl⟩
  · exact ⟨t, c.traits, rfl, rfl, fun _ _ => rfl⟩

theorem dropType_hide (en : Ident) (pat pat' : LetPat)
    (h : ∀ as ks, dropType (.mk (.sLocal pat) as ks) = dropType (.mk (.sLocal pat') as ks)) (as : List Attr)
    {ks ks' : List Node} (hk : hideTraitsL en ks = hideTraitsL en ks') :
    dropType (hideTraits en (.mk (.sLocal pat) as ks)) =
      dropType (hideTraits en (.mk (.sLocal pat') as ks')) := by
  simp only [hideTraits, hk]
  exact h _ _

include ha in
theorem expandParentLocal_loose {c : Cx} (hc : c.args ≠ []) (hm : c.mode = .default) (pat : LetPat)
    (as : List Attr) (ks : List Node) :
    Loose c.ident (expandParentLocal env (visit env f) c pat as ks)
      (expandParentLocal env (visit env f) (re a t c) pat as ks) := by
  obtain ⟨t', t'', h1, h2, h3⟩ := localAnalysis_re (env := env) a t c pat
  unfold expandParentLocal
  dsimp only
  rw [h1, h2, no_dummy (c := re c.args t'' c) hc, no_dummy (c := re a t' c) ha]
  simp only [Bool.false_eq_true, if_false]
  cases ks with
  | nil => exact ⟨rfl, rfl, dropType_hide _ _ _ h3 as rfl⟩
  | cons e els =>
    have := expandBuild_re (env := env) (f := f) (t := t') ha (c := re c.args t'' c) hc hm e
    exact ⟨this.errs, this.panics, dropType_hide _ _ _ h3 as (congrArg (· :: _) this.code)⟩

include ha in
theorem expandParentStmt_loose {c : Cx} (hc : c.args ≠ []) (hm : c.mode = .default)
    (hl : c.lastMode = .default) (n : Node) :
    Loose c.ident (expandParentStmt env (visit env f) c n)
      (expandParentStmt env (visit env f) (re a t c) n) := by
  by_cases hn : annotatedLet (.stmt n) = true
  · match n, hn with
    | .mk (.sLocal (.typed s ty)) as ks, _ => exact expandParentLocal_loose ha hc hm _ _ _
  · exact (expandParentStmt_re ha hc hm hl n fun _ => by simpa using hn).loose

theorem finish_loose {en : Ident} {r s : Cx × Node} (h : Loose en r s) :
    dropTypeOut (hideTraitsOut en (finish s)) = dropTypeOut (hideTraitsOut en (finish r)) := by
  unfold finish
  rw [h.panics, h.errs]
  split
  · split
    · exact congrArg Output.code h.code
    · rfl
  · rfl

theorem autoEnum_loose' {en : Ident} {c : Cx} (ha : a ≠ []) (hc : c.args ≠ []) (hm : c.mode = .default)
    (hl : c.lastMode = .default) (hen : c.ident = en) (input : Input) :
    dropTypeOut (hideTraitsOut en (match expandInput env f (re a t c) input with
      | some r => finish r
      | none => .errors [.inputParse, .badTarget])) =
    dropTypeOut (hideTraitsOut en (match expandInput env f c input with
      | some r => finish r
      | none => .errors [.inputParse, .badTarget])) := by
  subst hen
  cases input with
  | stmt n => exact finish_loose (expandParentStmt_loose ha hc hm hl n)
  | expr n => exact finish_loose (expandParentExpr_re ha hc hm n false).loose
  | invalid => rfl

theorem autoEnum_loose {fuel h : Nat} {toks toks' : List Tok} {traits traits' : List Path}
    {marker : Option Ident} (h1 : IsArgs toks traits marker) (h2 : IsArgs toks' traits' marker)
    (h3 : traits ≠ []) (h4 : traits' ≠ []) (input : Input) :
    dropTypeOut (hideTraitsOut (enumIdent h) (autoEnum env fuel h toks' input)) =
      dropTypeOut (hideTraitsOut (enumIdent h) (autoEnum env fuel h toks input)) := by
  unfold autoEnum Cx.new
  rw [(parseArgs_iff toks traits marker).mpr h1, (parseArgs_iff toks' traits' marker).mpr h2]
  let c (m : String) : Cx :=
    { ident := enumIdent h, variants := [], marker := m, markers := [] ++ [m], root := true,
      hasChild := false, mode := .default, lastMode := .default, errs := [], args := traits,
      traits := [], panics := [], log := [] }
  cases marker with
  | none => exact autoEnum_loose' (c := c DEFAULT_MARKER) (t := []) h4 h3 rfl rfl rfl input
  | some m => exact autoEnum_loose' (c := c m) (t := []) h4 h3 rfl rfl rfl input

end Traits

end AutoEnums
