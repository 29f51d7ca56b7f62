import Verif.Lemmas.FillVisit
import Verif.Lemmas.Mono

/-! # Lemmas: the fuel of an expansion with operands replaced (for C70) -/

set_option linter.unusedSimpArgs false

namespace AutoEnums

open Spec

namespace Fill

/-! ## Still code is left alone -/

/-- Does `return` belong to a closure here?  The visitor without arguments never looks. -/
def shut (vk : VK) (sc : Scope) : Bool := vk == .dummy || sc.closure

section

variable {env : Env} {rec : Rec} {D : Nat}
  (hk : ∀ vk sc c m, still (shut vk sc) m = true → depth m < D → rec vk sc c m = (c, m))

theorem depth_kid {k : Kind} {as : List Attr} {ks : List Node} {m : Node} (hm : m ∈ ks) :
    depth m < depth (.mk k as ks) := by
  rw [depth]
  have : depth m ≤ depthL ks := by
    induction ks with
    | nil => cases hm
    | cons a l ih =>
      rw [depthL]
      rcases List.mem_cons.mp hm with rfl | hm
      · omega
      · have := ih hm; omega
  omega

include hk

theorem walk_still (vk : VK) (sc : Scope) (c : Cx) (n : Node) (hn : stillL (shut vk sc) n.kids = true)
    (hd : depth n ≤ D) : walk (rec vk sc) c n = (c, n) := by
  obtain ⟨k, as, ks⟩ := n
  exact walk_hole c k as ks fun c m hm => hk vk sc c m (stillL_mem hn m hm)
    (Nat.lt_of_lt_of_le (depth_kid hm) hd)

theorem vsVisitExpr_still (vk : VK) (sc : Scope) (c : Cx) (n : Node) (semi : Bool) {cl : Bool} (hs : still cl n = true)
    (hn : stillL (shut vk sc) n.kids = true) (hd : depth n ≤ D) : vsVisitExpr env rec vk sc c n semi = (c, n) := by
  unfold vsVisitExpr
  rw [still_remove hs (by simp)]
  exact walk_still hk vk sc c n hn hd

omit hk in
theorem findRemoveAttrs_still (sc : Scope) (c : Cx) (n : Node) {cl : Bool} (hs : still cl n = true) :
    findRemoveAttrs sc c n = (c, n) := by
  unfold findRemoveAttrs
  split
  · rfl
  · simp only [still_remove hs (s := NEVER) (by simp), still_remove hs (s := "rec") (by simp)]

omit hk in
theorem visitMarker_still (sc : Scope) (c : Cx) (n : Node) {cl : Bool} (hs : still cl n = true)
    (hf : (!sc.foreign || c.marker != DEFAULT_MARKER) = true) : visitMarker sc c n = (c, n) := by
  unfold visitMarker
  rw [hf]
  simp only [Cx.assert, if_true]
  obtain ⟨k, as, ks⟩ := n
  cases k <;> try rfl
  case eMacro p t =>
    have := (still_mk hs).2.1
    have hm : c.isMarkerExact p = false := by
      simp only [stillHere, decide_eq_true_eq] at this
      cases hm : c.isMarkerExact p with
      | false => rfl
      | true =>
        exfalso
        obtain ⟨lead, segs⟩ := p
        simp [Cx.isMarkerExact, Path.isIdent] at hm this
        revert hm
        rcases segs with _ | ⟨⟨i, a⟩, _ | ⟨_, _⟩⟩ <;> simp_all
    simp [hm]

omit hk in
theorem visitMode_still (sc : Scope) (c : Cx) (n : Node) (hs : still sc.closure n = true) :
    visitMode sc c n = (c, n) := by
  have h2 : stillHere sc.closure n.kind = true := by
    obtain ⟨k, as, ks⟩ := n
    exact (still_mk hs).2.1
  unfold visitMode visitReturn visitTry
  obtain ⟨k, as, ks⟩ := n
  cases c.mode <;> dsimp only
  · split
    · rename_i hc
      cases k <;> try rfl
      simp only [Node.kind, stillHere] at h2
      simp [h2] at hc
    · rfl
  · split
    · rename_i hc
      cases k <;> try rfl
      simp only [Node.kind, stillHere] at h2
      simp [h2] at hc
    · rfl

omit hk in
theorem still_check (vk : VK) (sc : Scope) {n : Node} (hs : still (shut vk sc) n = true) :
    still (shut vk (sc.check n.kind)) n = true ∧ stillL (shut vk (sc.check n.kind)) n.kids = true ∧
      (vk = .dummy → stillL (shut vk sc) n.kids = true) := by
  obtain ⟨k, as, ks⟩ := n
  obtain ⟨h1, h2, h3⟩ := still_mk hs
  have hc : (sc.check k).closure = (sc.closure || closes k) := by cases k <;> simp [Scope.check, closes]
  have hs' : shut vk (sc.check k) = (shut vk sc || closes k) := by
    simp only [shut, hc, Bool.or_assoc]
  refine ⟨?_, by show stillL (shut vk (sc.check k)) ks = true; rw [hs']; exact h3, ?_⟩
  · show still (shut vk (sc.check k)) _ = true
    rw [hs']
    cases hb : shut vk sc with
    | true => rw [hb] at hs; exact hs
    | false =>
      rw [hb] at hs
      exact still_weaken hs
  · rintro rfl
    have : shut VK.dummy sc = true := rfl
    rw [this] at h3 ⊢
    exact h3

theorem visitExpr_still (sc : Scope) (c : Cx) (n : Node) (semi : Bool) (he : c.hasError = false)
    (hs : still (shut .visitor sc) n = true) (hd : depth n ≤ D) : visitExpr env rec sc c n semi = (c, n) := by
  obtain ⟨s1, s2, _⟩ := still_check .visitor sc hs
  unfold visitExpr
  simp only [still_anyAttr hs (s := NAME) (by simp), he, Bool.not_false, Cx.assert, if_true, Bool.false_eq_true, if_false]
  generalize sc.check n.kind = sc at *
  rw [visitMode_still sc c n s1, still_remove hs (s := NESTED) (by simp)]
  simp only [ite_self, vsVisitExpr_still hk .visitor sc c n semi hs s2 hd]
  split
  · rename_i hf
    rw [visitMarker_still sc c n hs hf]
    exact findRemoveAttrs_still sc c n hs
  · rfl

theorem visitLocal_still (vk : VK) (sc : Scope) (c : Cx) (n : Node) {cl : Bool} (hs : still cl n = true)
    (hn : stillL (shut vk sc) n.kids = true) (hd : depth n ≤ D) : visitLocal rec vk sc c n = (c, n) := by
  unfold visitLocal
  cases vk with
  | dummy => exact walk_still hk .dummy sc c n hn hd
  | visitor =>
    dsimp only
    split
    · rfl
    · rw [still_remove hs (by simp)]
      simp only [ite_self, walk_still hk .visitor sc c n hn hd]
      exact findRemoveAttrs_still sc c n hs

theorem vsVisitStmt_still (vk : VK) (sc : Scope) (c : Cx) (n : Node) (hs : still (shut vk sc) n = true)
    (hx : n.kind.isExpr = false) (hv : ∀ semi as e, n = .mk (.sExpr semi) as [e] → vk = .dummy)
    (hd : depth n ≤ D) : vsVisitStmt env rec vk sc c n = (c, n) := by
  unfold vsVisitStmt
  split
  · rename_i semi as e
    obtain rfl := hv semi as e rfl
    have h3 := (still_mk hs).2.2
    have he : still (shut .dummy sc) e = true := stillL_mem h3 e (by simp)
    have := depth_kid (k := .sExpr semi) (as := as) (ks := [e]) (m := e) (by simp)
    rw [vsVisitExpr_still hk .dummy sc c e semi he ((still_check .dummy sc he).2.2 rfl) (by omega)]
  · rename_i p as ks
    have h3 := (still_mk hs).2.2
    rw [still_remove hs (by simp)]
    have : (shut vk sc || closes (.sLocal p)) = shut vk sc := by simp [closes]
    rw [this] at h3
    exact visitLocal_still hk vk sc c _ hs h3 hd
  · rfl

theorem step_still (vk : VK) (sc : Scope) (c : Cx) (n : Node) (hs : still (shut vk sc) n = true)
    (hd : depth n ≤ D) : step env rec vk sc c n = (c, n) := by
  have hN : n.anyAttr NAME = false := still_anyAttr hs (by simp)
  have hkids : n.kind.isExpr = false → stillL (shut vk sc) n.kids = true := by
    intro hx
    obtain ⟨k, as, ks⟩ := n
    have h3 := (still_mk hs).2.2
    have : closes k = false := by cases k <;> first | rfl | cases hx
    rw [this, Bool.or_false] at h3
    exact h3
  cases vk with
  | visitor =>
    simp only [step, visitorStep]
    split
    · split
      · rfl
      · rename_i he
        exact visitExpr_still hk sc c n false (by simpa using he) hs hd
    · rename_i hx0
      have hx : n.kind.isExpr = false := by simpa using hx0
      split
      · rename_i hst
        unfold visitStmt
        split
        · rfl
        · rename_i he
          split
          · rename_i semi as e
            have h1 : still (shut .visitor sc) e = true := stillL_mem (hkids hx) e (by simp [Node.kids])
            have := depth_kid (k := .sExpr semi) (as := as) (ks := [e]) (m := e) (by simp)
            rw [visitExpr_still hk sc c e semi (by simpa using he) h1 (by omega)]
          · rename_i hne
            simp only [hN, Bool.false_eq_true, if_false]
            exact vsVisitStmt_still hk .visitor sc c n hs hx
              (fun semi as e heq => absurd heq (hne semi as e)) hd
      · split
        · unfold visitArm
          split
          · rfl
          · rw [still_remove hs (by simp)]
            simp only [ite_self, walk_still hk .visitor sc c n (hkids hx) hd]
            exact findRemoveAttrs_still sc c n hs
        · exact walk_still hk .visitor sc c n (hkids hx) hd
  | dummy =>
    have hall := (still_check .dummy sc hs).2.2 rfl
    simp only [step, dummyStep, hN, Bool.false_eq_true, if_false]
    split
    · split
      · rfl
      · exact vsVisitExpr_still hk .dummy sc c n false hs hall hd
    · rename_i hx
      have hx : n.kind.isExpr = false := by simpa using hx
      split
      · split
        · rfl
        · exact vsVisitStmt_still hk .dummy sc c n hs hx (fun _ _ _ _ => rfl) hd
      · exact walk_still hk .dummy sc c n hall hd

end

theorem visit_still (env : Env) : ∀ (f : Nat) (vk : VK) (sc : Scope) (c : Cx) (n : Node),
    still (shut vk sc) n = true → depth n ≤ f → visit env f vk sc c n = (c, n) := by
  intro f
  induction f with
  | zero => intro vk sc c n _ hd; obtain ⟨k, as, ks⟩ := n; rw [depth] at hd; omega
  | succ f ih =>
    intro vk sc c n hs hd
    exact step_still (D := f + 1) (fun vk sc c m hm hlt => ih vk sc c m hm (by omega)) vk sc c n hs hd

/-! ## The visitors on top of a base -/

/-- The visitors, with `base` where the fuel runs out. -/
def visitFrom (base : Rec) (env : Env) : Nat → Rec
  | 0 => base
  | f + 1 => step env (visitFrom base env f)

/-- Leaves code that passes the test alone, and stops at other code. -/
def baseOf (p : VK → Scope → Node → Bool) : Rec :=
  fun vk sc c n => if p vk sc n then (c, n) else (c.panic .fuel, n)

theorem baseOf_good (env : Env) (p : VK → Scope → Node → Bool) : GoodRec env (baseOf p) := by
  refine ⟨fun vk sc c n _ => ?_, fun vk sc c n i _ => ?_, fun sc c n => ?_, fun vk sc c n h => ?_, fun vk sc c as ss => ⟨ss, ?_⟩⟩ <;>
    unfold baseOf <;> split
  · exact .refl
  · exact .book (.panic _ _)
  all_goals first | rfl | exact h

theorem visitFrom_good (env : Env) (p : VK → Scope → Node → Bool) : ∀ f, GoodRec env (visitFrom (baseOf p) env f)
  | 0 => baseOf_good env p
  | f + 1 => step_good (visitFrom_good env p f)

theorem visit_from (env : Env) (p : VK → Scope → Node → Bool) : ∀ f, SameOnRec (visit env f) (visitFrom (baseOf p) env f)
  | 0 => fun vk sc c n _ hp => absurd hp (by simp [visit, Cx.panic])
  | f + 1 => fun vk sc c n hi => step_stays (visit_good env f) (visit_from env p f) vk sc c n hi

/-- The test for still code of a depth. -/
def stillTo (d : Nat) (vk : VK) (sc : Scope) (n : Node) : Bool := still (shut vk sc) n && decide (depth n ≤ d)

theorem from_visit (env : Env) (d : Nat) : ∀ f, SameOnRec (visitFrom (baseOf (stillTo d)) env f) (visit env (f + d))
  | 0 => by
    intro vk sc c n _ hp
    simp only [visitFrom, baseOf] at hp ⊢
    split at hp
    · rename_i ht
      rw [if_pos ht, Nat.zero_add]
      simp only [stillTo, Bool.and_eq_true, decide_eq_true_eq] at ht
      exact visit_still env d vk sc c n ht.1 ht.2
    · exact absurd hp (by simp [Cx.panic])
  | f + 1 => by
    intro vk sc c n hi
    rw [Nat.add_right_comm]
    exact step_stays (visitFrom_good env _ f) (from_visit env d f) vk sc c n hi

theorem from_still (env : Env) (d : Nat) : ∀ (f : Nat) (vk : VK) (sc : Scope) (c : Cx) (n : Node),
    still (shut vk sc) n = true → depth n ≤ d → visitFrom (baseOf (stillTo d)) env f vk sc c n = (c, n) := by
  intro f
  induction f with
  | zero => intro vk sc c n hs hd; simp [visitFrom, baseOf, stillTo, hs, hd]
  | succ f ih =>
    intro vk sc c n hs hd
    exact step_still (D := d + 1) (fun vk sc c m hm hlt => ih vk sc c m hm (by omega)) vk sc c n hs (by omega)

variable {σ : String → Node} (h : ∀ s, operand (σ s) = true) {d : Nat} (hd : ∀ s, depth (σ s) ≤ d)
include h hd

theorem from_kids (env : Env) (f : Nat) (vk : VK) (sc : Scope) (s : String) (c : Cx) :
    ∀ n ∈ (σ s).kids, visitFrom (baseOf (stillTo d)) env f vk sc c n = (c, n) := by
  intro n hn
  refine from_still env d f vk sc c n ?_ ?_
  · exact stillL_mem (still_mono (hole_still h s)) n hn
  · have h1 := hd s
    have : depth n < depth (σ s) := by
      revert hn
      cases σ s with
      | mk k as ks => exact fun hn => depth_kid hn
    omega

theorem from_pair {env env' : Env} (ht : env'.typeAnalysis = env.typeAnalysis)
    (hh : ∀ n, env'.hash (fill σ n) = env.hash n) : ∀ (f : Nat) (vk : VK) (sc : Scope) (c : Cx) (n : Node),
    visitFrom (baseOf (stillTo d)) env' f vk sc c (fill σ n) =
      pair σ (visitFrom (baseOf fun vk sc n => stillTo d vk sc (fill σ n)) env f vk sc c n) := by
  intro f
  induction f with
  | zero =>
    intro vk sc c n
    simp only [visitFrom, baseOf]
    split <;> rfl
  | succ f ih =>
    intro vk sc c n
    cases vk with
    | visitor => exact visitorStep_pair h ht hh ih (fun vk sc s c => from_kids h hd env' f vk sc s c) sc c n
    | dummy => exact dummyStep_pair h ht hh ih (fun vk sc s c => from_kids h hd env' f vk sc s c) sc c n

end Fill

end AutoEnums
