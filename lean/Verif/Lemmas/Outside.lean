import Verif.Spec.Outside
import Verif.Lemmas.Inner
import Verif.Lemmas.FlowRun
import Verif.Lemmas.Errors

/-! # Regions of inner attributes -/

namespace AutoEnums

open Spec Judg

/-- What a visitor is after. -/
def jobIn (vk : VK) (cx : Cx) : Job where
  en := cx.ident
  marker := match vk with
    | .visitor => cx.marker
    | .dummy => "marker"
  branches := false
  returns := match vk, cx.mode with
    | .visitor, .ret _ => true
    | _, _ => false
  tries := match vk, cx.mode with
    | .visitor, .try_ => true
    | _, _ => false

theorem jobIn_same {vk : VK} {a b : Cx} (h : Same a b) : jobIn vk b = jobIn vk a := by
  unfold jobIn; rw [h.ident, h.marker, h.mode]

theorem variant_is (i : Nat) : IsVariant (variantIdent i) := ⟨i, rfl⟩

theorem some_variant : ∃ vn, IsVariant vn := ⟨_, variant_is 0⟩

theorem isIdent_iff (p : Path) (m : String) : p.isIdent m = true ↔ p = ⟨false, [⟨m, none⟩]⟩ := by
  unfold Path.isIdent
  constructor
  · intro h
    split at h
    · rename_i i h1 h2
      cases p with | mk l s =>
      simp only [beq_iff_eq] at h
      subst h
      simp only at h1 h2
      rw [h1, h2]
    · cases h
  · rintro rfl
    simp

/-- Inside a region, only the own marker counts. -/
theorem isMarkerExpr_region {cx : Cx} (hm : cx.markers = []) (e : Node) (es : List Node) :
    cx.isMarkerExpr e = isCallOf cx.marker (e :: es) := by
  obtain ⟨k, as, ks⟩ := e
  unfold Cx.isMarkerExpr
  split
  · rename_i p t _ _ h
    cases h
    simp only [Cx.isMarker, hm, List.any_nil, isCallOf, Cx.isMarkerExact]
    have := isIdent_iff p cx.marker
    rw [Bool.eq_iff_iff, beq_iff_eq, ← this]
    split
    · simp
    · simp_all
  · rename_i h
    unfold isCallOf
    split
    · rename_i heq; cases heq; exact absurd rfl (h _ _ _ _)
    · rfl

theorem isMarkerExpr_regionL {cx : Cx} (hm : cx.markers = []) (e : Node) (es : List Node) :
    cx.isMarkerExpr e = isCallOfAny [cx.marker] (e :: es) := by
  rw [isMarkerExpr_region hm e es]; simp [isCallOfAny]

theorem marked_never (as : List Attr) : marked "never" as = anyEmptyAttr as NEVER := isNever_eq as

section
variable {X : Expansion} {J : Job} {w : Where} {semi : Bool}

theorem OutsideL_nil {ns : List Node} : OutsideL X J w semi [] ns ↔ ns = [] := by
  rw [OutsideL]

theorem OutsideL_cons {n : Node} {ns ns' : List Node} :
    OutsideL X J w semi (n :: ns) ns' ↔
      ∃ m ms, ns' = m :: ms ∧ Outside X J w semi n m ∧ OutsideL X J w semi ns ms := by
  rw [OutsideL]

theorem OutsideL_length : ∀ {ns ns' : List Node}, OutsideL X J w semi ns ns' →
    ns'.length = ns.length
  | [], _, h => by rw [OutsideL_nil] at h; subst h; rfl
  | n :: ns, _, h => by
    rw [OutsideL_cons] at h
    obtain ⟨m, ms, rfl, _, h⟩ := h
    simp [OutsideL_length h]

theorem Outside_mk {k : Kind} {as : List Attr} {ks : List Node} {n' : Node} :
    Outside X J w semi (.mk k as ks) n' ↔ oddStatement k ks = true ∨
    ∃ ks' vn vn', (if hidesCode k then ks' = ks else OutsideL X J (w.enter k) (endsIn k) ks ks') ∧
      IsVariant vn ∧ IsVariant vn' ∧ Via X J [J.marker] (w.enter k) semi vn vn' k as ks ks' n' := by
  rw [Outside]

theorem Outside_path {b : Bool} {p : Path} {n' : Node}
    (h : Outside X J w semi (.mk (.ePath b p) [] []) n') : n' = .mk (.ePath b p) [] [] := by
  rw [Outside_mk] at h
  simpa [Via, innerAttr, oddStatement, hidesCode, OutsideL_nil, viaFlow, viaMarker, some_variant] using h

theorem Outside_call {p : Path} {e n' : Node}
    (h : Outside X J w semi (exprCall [] p e) n') : ∃ e', n' = exprCall [] p e' ∧ Outside X J w false e e' := by
  unfold exprCall at h
  rw [Outside_mk] at h
  simp only [Via, innerAttr_nil, oddStatement, hidesCode, viaFlow, viaMarker] at h
  rcases h with h | ⟨ks', _, _, h, _, _, rfl⟩
  · cases h
  · simp only [Bool.false_eq_true, if_false, OutsideL_cons, OutsideL_nil] at h
    obtain ⟨m, ms, rfl, h1, m', ms', rfl, h2, rfl⟩ := h
    cases Outside_path h1
    exact ⟨m', rfl, h2⟩

theorem Outside_unit {n' : Node} (h : Outside X J w semi unitE n') : n' = unitE := by
  unfold unitE at h ⊢
  rw [Outside_mk] at h
  simpa [Via, innerAttr, oddStatement, hidesCode, OutsideL_nil, viaFlow, viaMarker, some_variant] using h

/-- Nodes of kinds that no attribute cares about. -/
theorem Outside_simple {k : Kind} {ks : List Node} {n' : Node}
    (h : Outside X J w semi (.mk k [] ks) n') (h1 : hidesCode k = false) (h2 : k ≠ .eTry)
    (h3 : k = .eReturn → J.returns = false) (h4 : oddStatement k ks = false) :
    ∃ ks', n' = .mk k [] ks' ∧ OutsideL X J (w.enter k) (endsIn k) ks ks' := by
  rw [Outside_mk] at h
  simp only [Via, innerAttr_nil, h4, h1, Bool.false_eq_true, if_false, false_or] at h
  obtain ⟨ks', vn, vn', h, _, _, rfl⟩ := h
  refine ⟨ks', ?_, h⟩
  have : viaFlow J [J.marker] (w.enter k) vn k [] ks ks' = .mk k [] ks' := by
    unfold viaFlow
    split
    · rw [h3 rfl]; rfl
    · exact absurd rfl h2
    · rfl
  rw [this]
  unfold viaMarker
  split
  · rename_i heq; cases heq; cases h1
  · rfl

theorem Outside_one {k : Kind} {c n' : Node}
    (h : Outside X J w semi (.mk k [] [c]) n') (h1 : hidesCode k = false) (h2 : k ≠ .eTry)
    (h3 : k = .eReturn → J.returns = false) (h4 : oddStatement k [c] = false) :
    ∃ c', n' = .mk k [] [c'] ∧ Outside X J (w.enter k) (endsIn k) c c' := by
  obtain ⟨_, rfl, g⟩ := Outside_simple h h1 h2 h3 h4
  simp only [OutsideL_cons, OutsideL_nil] at g
  obtain ⟨c', _, rfl, g, rfl⟩ := g
  exact ⟨c', rfl, g⟩

theorem Outside_tryMatch {vn en : Ident} {as : List Attr} {e : Node} {ks : List Node}
    (hr : J.returns = false) (h : OutsideL X J w semi (tryMatch as en vn e).kids ks) :
    ∃ e', ks = (tryMatch as en vn e').kids ∧ Outside X J w semi e e' := by
  simp only [tryMatch, Node.kids] at h ⊢
  simp only [OutsideL_cons, OutsideL_nil] at h
  obtain ⟨e', _, rfl, he, a1, _, rfl, h1, a2, _, rfl, h2, rfl⟩ := h
  refine ⟨e', ?_, he⟩
  obtain ⟨_, rfl, g1⟩ := Outside_one h1 rfl (by simp) (by simp) rfl
  cases Outside_path g1
  obtain ⟨_, rfl, g2⟩ := Outside_one h2 rfl (by simp) (by simp) rfl
  obtain ⟨_, rfl, g3⟩ := Outside_one g2 rfl (by simp) (by simp) rfl
  obtain ⟨_, rfl, g4⟩ := Outside_one g3 rfl (by simp) (by simp) rfl
  obtain ⟨_, rfl, g5⟩ := Outside_one g4 rfl (by simp) (fun _ => hr) rfl
  obtain ⟨_, rfl, g6⟩ := Outside_call (p := ⟨true, _⟩) g5
  obtain ⟨_, rfl, g7⟩ := Outside_call (p := variantPath en vn) g6
  cases Outside_path g7
  rfl

end

/-- The scope is described by `w`. -/
def Placed (vk : VK) (sc : Scope) (w : Where) : Prop :=
  vk = .visitor → w.closure = sc.closure ∧ w.tryBlock = sc.tryBlock

theorem Placed.check {sc : Scope} {w : Where} (h : Placed .visitor sc w) (k : Kind) :
    Placed .visitor (sc.check k) (w.enter k) := by
  intro _
  obtain ⟨h1, h2⟩ := h rfl
  cases k <;> simp [Scope.check, Where.enter, h1, h2]

/-- What happens to a node of a region before its kids are visited. -/
theorem visitMode_region {X : Expansion} {sc : Scope} {cx : Cx} {w : Where} (hw : Placed .visitor sc w) 
    {ms : List String} (hm : ∀ e es, cx.isMarkerExpr e = isCallOfAny ms (e :: es))
    (k : Kind) (as : List Attr) (ks : List Node) :
    ∃ vn, IsVariant vn ∧ (visitMode sc cx (.mk k as ks)).2.rawAttrs = as ∧
      (visitMode sc cx (.mk k as ks)).2.kind.isOpaque = k.isOpaque ∧
      ∀ ks1, OutsideL X (jobIn .visitor cx) w (endsIn k) (visitMode sc cx (.mk k as ks)).2.kids ks1 →
        ∃ ks', OutsideL X (jobIn .visitor cx) w (endsIn k) ks ks' ∧
          .mk (visitMode sc cx (.mk k as ks)).2.kind as ks1 =
            viaFlow (jobIn .visitor cx) ms w vn k as ks ks' := by
  obtain ⟨hw1, hw2⟩ := hw rfl
  have hn : (k = .eReturn ∨ k = .eTry) → (Node.mk k as ks).anyEmptyAttr NEVER = marked "never" as := by
    rintro (rfl | rfl) <;> rw [marked_never] <;> rfl
  let goal := ∃ vn, IsVariant vn ∧ (visitMode sc cx (.mk k as ks)).2.rawAttrs = as ∧
      (visitMode sc cx (.mk k as ks)).2.kind.isOpaque = k.isOpaque ∧
      ∀ ks1, OutsideL X (jobIn .visitor cx) w (endsIn k) (visitMode sc cx (.mk k as ks)).2.kids ks1 →
        ∃ ks', OutsideL X (jobIn .visitor cx) w (endsIn k) ks ks' ∧
          .mk (visitMode sc cx (.mk k as ks)).2.kind as ks1 =
            viaFlow (jobIn .visitor cx) ms w vn k as ks ks'
  -- nothing happens
  have keep : (∀ vn ks', ks'.length = ks.length →
        viaFlow (jobIn .visitor cx) ms w vn k as ks ks' = .mk k as ks') →
      (visitMode sc cx (.mk k as ks)).2 = .mk k as ks → goal := fun h h' => by
    refine ⟨variantIdent 0, variant_is 0, by rw [h']; rfl, by rw [h']; rfl, fun ks1 ho => ?_⟩
    rw [h'] at ho ⊢
    exact ⟨ks1, ho, (h _ _ (OutsideL_length ho)).symm⟩
  by_cases hk : k = .eReturn
  · subst hk
    have hn := hn (.inl rfl)
    cases hmode : cx.mode with
    | ret c =>
      have hr : (jobIn .visitor cx).returns = true := by simp [jobIn, hmode]
      by_cases hs : (!w.closure && !marked "never" as) = true
      · cases ks with
        | nil =>
          have e : (visitMode sc cx (.mk .eReturn as [])).2 = .mk .eReturn as
              [construct [] cx.ident (variantIdent cx.variants.length) unitE] := by
            simp only [visitMode, hmode, visitReturn, ← hw1, hn, hs, if_true]; rfl
          refine ⟨variantIdent cx.variants.length, variant_is _, by rw [e]; rfl, by rw [e]; rfl, fun ks1 ho => ?_⟩
          rw [e] at ho ⊢
          simp only [Node.kids, OutsideL_cons, OutsideL_nil] at ho
          obtain ⟨m, _, rfl, ho, rfl⟩ := ho
          obtain ⟨e', rfl, ho1⟩ := Outside_call (p := variantPath _ _) ho
          cases Outside_unit ho1
          refine ⟨[], OutsideL_nil.2 rfl, ?_⟩
          have hz : isCallOfAny ms [] = false := by simp [isCallOfAny, isCallOf]
          simp only [viaFlow, hr, Bool.true_and, hz, Bool.not_false, Bool.and_true, hs, if_true]
          rfl
        | cons v vs =>
          cases hv : isCallOfAny ms (v :: vs) with
          | false =>
            have e : (visitMode sc cx (.mk .eReturn as (v :: vs))).2 = .mk .eReturn as
                (construct [] cx.ident (variantIdent cx.variants.length) v :: vs) := by
              simp only [visitMode, hmode, visitReturn, ← hw1, hn, hs, if_true, Cx.replaceBoxed,
                hm v vs, hv, Bool.false_eq_true, if_false]; rfl
            refine ⟨variantIdent cx.variants.length, variant_is _, by rw [e]; rfl, by rw [e]; rfl, fun ks1 ho => ?_⟩
            rw [e] at ho ⊢
            simp only [Node.kids, OutsideL_cons] at ho
            obtain ⟨m, vs', rfl, ho, ho'⟩ := ho
            obtain ⟨v', rfl, ho1⟩ := Outside_call (p := variantPath _ _) ho
            refine ⟨v' :: vs', OutsideL_cons.2 ⟨_, _, rfl, ho1, ho'⟩, ?_⟩
            have hv' : isCallOfAny ms (v :: vs) = false := hv
            simp only [viaFlow, hr, hv', Bool.true_and, Bool.not_false, Bool.and_true, hs, if_true]
            rfl
          | true =>
            refine keep (fun vn ks' _ => ?_) ?_
            · have hv' : isCallOfAny ms (v :: vs) = true := hv
              simp only [viaFlow, hv', Bool.not_true, Bool.and_false, Bool.false_eq_true, if_false]
            · simp only [visitMode, hmode, visitReturn, ← hw1, hn, hs, if_true, Cx.replaceBoxed,
                hm v vs, hv]
      · refine keep (fun vn ks' _ => ?_) ?_
        · simp only [viaFlow, hr, Bool.true_and, hs, Bool.false_and, Bool.false_eq_true, if_false]
        · simp only [visitMode, hmode, visitReturn, ← hw1, hn, hs, if_false, Bool.false_eq_true]
    | _ =>
      have hr : (jobIn .visitor cx).returns = false := by simp [jobIn, hmode]
      refine keep (fun vn ks' _ => ?_) ?_
      · simp only [viaFlow, hr, Bool.false_and, Bool.false_eq_true, if_false]
      · simp only [visitMode, hmode, visitTry]
        try (split <;> rfl)
  by_cases hk : k = .eTry
  · subst hk
    have hn := hn (.inr rfl)
    cases hmode : cx.mode with
    | try_ =>
      have hr : (jobIn .visitor cx).tries = true := by simp [jobIn, hmode]
      have hr' : (jobIn .visitor cx).returns = false := by simp [jobIn, hmode]
      by_cases hs : (!w.tryBlock && !w.closure && !marked "never" as) = true
      · rcases ks with _ | ⟨v, _ | ⟨v2, vs⟩⟩
        · refine keep (fun vn ks' hl => ?_) ?_
          · match ks' with
            | [] => rfl
          · simp only [visitMode, hmode, visitTry, ← hw1, ← hw2, hn, hs, if_true]
        · cases hv : isCallOfAny ms [v] with
          | false =>
            have e : (visitMode sc cx (.mk .eTry as [v])).2 =
                tryMatch as cx.ident (variantIdent cx.variants.length) v := by
              simp only [visitMode, hmode, visitTry, ← hw1, ← hw2, hn, hs, if_true,
                hm v [], hv, Bool.false_eq_true, if_false]; rfl
            refine ⟨variantIdent cx.variants.length, variant_is _, by rw [e]; rfl, by rw [e]; rfl, fun ks1 ho => ?_⟩
            rw [e] at ho ⊢
            obtain ⟨v', rfl, ho1⟩ := Outside_tryMatch hr' ho
            refine ⟨[v'], OutsideL_cons.2 ⟨_, _, rfl, ho1, OutsideL_nil.2 rfl⟩, ?_⟩
            have hv' : isCallOfAny ms [v] = false := hv
            simp only [viaFlow, hr, hv', Bool.true_and, Bool.not_false, Bool.and_true]
            rw [if_pos (by rw [← hs]; cases w.closure <;> cases w.tryBlock <;> rfl)]
            rfl
          | true =>
            refine keep (fun vn ks' _ => ?_) ?_
            · have hv' : isCallOfAny ms [v] = true := hv
              simp only [viaFlow, hv', Bool.not_true, Bool.and_false, Bool.false_eq_true, if_false]
              split <;> rfl
            · simp only [visitMode, hmode, visitTry, ← hw1, ← hw2, hn, hs, if_true,
                hm v [], hv]
        · refine keep (fun vn ks' hl => ?_) ?_
          · match ks' with
            | [] => rfl
            | [_] => simp at hl
            | _ :: _ :: _ => rfl
          · simp only [visitMode, hmode, visitTry, ← hw1, ← hw2, hn, hs, if_true]
      · refine keep (fun vn ks' _ => ?_) ?_
        · simp only [viaFlow, hr, Bool.true_and]
          split
          · rw [if_neg]
            intro h
            apply hs
            revert h
            cases w.closure <;> cases w.tryBlock <;> simp
            intro h _; exact h
          · rfl
        · simp only [visitMode, hmode, visitTry, ← hw1, ← hw2, hn, hs, if_false, Bool.false_eq_true]
    | _ =>
      have hr : (jobIn .visitor cx).tries = false := by simp [jobIn, hmode]
      refine keep (fun vn ks' _ => ?_) ?_
      · simp only [viaFlow, hr, Bool.false_and, Bool.false_eq_true, if_false]
        split <;> rfl
      · simp only [visitMode, hmode, visitReturn]
        try (split <;> rfl)
  · refine keep (fun vn ks' _ => ?_) ?_
    · unfold viaFlow; split <;> first | contradiction | rfl
    · exact visitMode_elsewhere sc cx (by assumption) hk

/-- What happens to a node of a region after its kids have been visited. -/
theorem post_region {sc : Scope} {cx : Cx} (hf : sc.foreign = true) (n : Node)
    (hc : Clean (post .visitor sc cx n).1) :
    ∃ vn, IsVariant vn ∧ (post .visitor sc cx n).2 = viaMarker (jobIn .visitor cx) vn n := by
  refine ⟨variantIdent cx.variants.length, variant_is _, ?_⟩
  unfold post at hc ⊢
  simp only [hf, Bool.not_true, Bool.false_or] at hc ⊢
  by_cases hm : (cx.marker != DEFAULT_MARKER) = true
  · rw [if_pos hm] at hc ⊢
    have hid : ∀ (c : Cx) (x : Node), findRemoveAttrs sc c x = (c, x) := fun c x => by
      unfold findRemoveAttrs; rw [if_pos hf]
    rw [hid] at hc ⊢
    have hm' : (jobIn .visitor cx).marker ≠ "marker" := by simpa [jobIn, DEFAULT_MARKER] using hm
    have ha : cx.assert (!sc.foreign || cx.marker != DEFAULT_MARKER) .markerForeign = cx := by
      simp [Cx.assert, hm]
    unfold visitMarker at hc ⊢
    rw [ha] at hc ⊢
    dsimp only at hc ⊢
    split
    · rename_i p t as ks
      simp only at hc
      by_cases hp : cx.isMarkerExact p = true
      · rw [if_pos hp] at hc ⊢
        have hp' := (isIdent_iff _ _).1 hp
        split
        · rename_i e
          simp only at hc
          have he : cx.hasError = false := by
            split at hc
            · rename_i h; exact absurd hc (not_clean_of_hasError h)
            · rename_i h; simpa using h
          simp only [he, Bool.false_eq_true, if_false, viaMarker]
          rw [if_pos ⟨hm', hp'⟩]
          rfl
        · rename_i h
          split at hc
          · exact absurd rfl (h _)
          · exact absurd hc Keeps.not_error
      · rw [if_neg hp]
        unfold viaMarker
        split
        · rename_i heq
          cases heq
          rw [if_neg]
          rintro ⟨_, h⟩
          exact hp ((isIdent_iff _ _).2 h)
        · rfl
    · rename_i h
      unfold viaMarker
      split
      · exact absurd rfl (h _ _ _ _)
      · rfl
  · rw [if_neg hm]
    have hm' : ¬(jobIn .visitor cx).marker ≠ "marker" := by simpa [jobIn, DEFAULT_MARKER] using hm
    unfold viaMarker
    split
    · rw [if_neg (fun h => hm' h.1)]
    · rfl

end AutoEnums
