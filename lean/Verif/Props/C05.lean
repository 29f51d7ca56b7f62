import Verif.Lemmas.Forms
import Verif.ExamplesAccepted

/-! # C05: the arms of a `match` in result position -/

namespace AutoEnums

open Spec

/-- C05: if the value of an input is that of a `match`, then the value of its expansion is that of a
`match` with the same arms in the same order, in which the bodies of the arms that are not exempt,
and of no others, are wrapped, once each, in consecutive variants.  Exempt are arms with `#[never]`,
`#[nested]` or an inner attribute, arms that diverge, and arms that contain `#[nested]`. -/
theorem C05 (env : Env) (traits : List Path) (en : Ident) (m : String) (n out : Node)
    (h : Accepted env traits en m n out) (as : List Attr) (s : Node) (arms : List Node)
    (hb : Branches' en m n (.mk .eMatch as (s :: arms)))
    (harms : ∀ a ∈ arms, ∃ p as gs b, a = .mk (.arm p) as (gs ++ [b]) ∧ gs.length ≤ 1) :
    ∃ as' s' arms', resultIn out = .mk .eMatch as' (s' :: arms') ∧ ArmsOf en m 0 arms arms' := by
  obtain ⟨sc, semi, cx, cx1, cx2, hf, hroot, hv, rfl, rfl, hn, hx, hc, _, hr⟩ := h.reached hb
  rw [childExpr.eq_def] at hr
  simp only [hv, exempt_eq hroot, hx, Bool.not_true, Bool.or_self, Bool.false_eq_true, if_false] at hr
  obtain ⟨h1, h2⟩ := clearWay_attrs hc
  obtain ⟨sc', cx3, as', ks', hf', hr', hout, _⟩ := hr.node hf h1 h2 (by simp) (by simp) rfl rfl
  cases hr' with
  | cons g1 g2 =>
    refine ⟨as', _, _, hout, ?_⟩
    have := arms_of hf' hroot harms g2
    rw [hn] at this
    exact this

theorem Treats.parts (b : Bool) (traits : List Path) (en : Ident) (m : String) (n out : Node)
    (h : Treats b traits en m n out) (hs : Simple en m n) (as : List Attr) (s : Node)
    (arms : List Node) (hb : Branches en m n (.mk .eMatch as (s :: arms)))
    (harms : ∀ a ∈ arms, ∃ p as gs b, a = .mk (.arm p) as (gs ++ [b]) ∧ gs.length ≤ 1) :
    ∃ s' arms', Alike en (resultIn out) (.mk .eMatch (strip as) (s' :: arms')) ∧
      (quiet m s = true → s' = s) ∧
      Aligned (fun arm arm' => ∃ p as gs b gs' b', arm = .mk (.arm p) as (gs ++ [b]) ∧
        arm' = .mk (.arm p) (strip as)
          (gs' ++ [if skipsArm m arm then b' else construct [] en "" b']) ∧
        gs'.length = gs.length ∧ (quietL m gs = true → gs' = gs) ∧
        (quiet m b = true → marked "nested" as = false → b' = b)) arms arms' := by
  obtain ⟨ts, hts, ha⟩ := h.result hs hb
  have hm := jobOf_marker en m n
  have hen : (jobOf en m n).en = en := jobOf_en en m n
  have hJ := hb.job
  rw [treat_match hJ (by rw [hm]; exact hb.live)] at ha
  refine ⟨_, _, ha, fun hq => treat_quiet _ _ _ (hts.through _ _) (by rw [hm]; exact hq), ?_⟩
  have hts' := hts.through .eMatch as
  generalize through ts .eMatch as = ts' at *
  clear hb ha h
  induction arms with
  | nil => exact .nil
  | cons a arms ih =>
    rw [List.map_cons]
    refine .cons ?_ (ih fun a h => harms a (by simp [h]))
    obtain ⟨p, as, gs, b, rfl, hl⟩ := harms a (by simp)
    rw [treat_arm hJ hl, hm]
    refine ⟨p, as, gs, b, gs.map (treat (jobOf en m n) {} ts' .plain),
      if skipsArm m (.mk (.arm p) as (gs ++ [b]))
        then treat (jobOf en m n) {} ts' (if marked "nested" as then .result else .plain) b
        else treat (jobOf en m n) {} ts' .plain b, rfl, ?_, by simp, ?_, ?_⟩
    · congr 3
      split
      · rfl
      · simp [ctor, hen]
    · exact fun hq => map_quiet hts' (by rw [hm]; exact hq)
    · intro hq hne
      rw [hne]
      have := treat_quiet (J := jobOf en m n) b {} ts' hts' (by rw [hm]; exact hq)
      simp [this]

/-- C05: what becomes of the parts of a `match` that is the value of an input without inner
attributes, up to the names of the variants: pattern, guard and scrutinee stay (the latter two are
treated like any other code inside the attributed one, and so stay literally what they are if they
contain no `return`, `?`, marker or helper attribute), and so does the body, except that it is
wrapped iff the arm is not skipped. -/
theorem C05_parts (env : Env) (traits : List Path) (en : Ident) (m : String) (n out : Node)
    (h : Accepted env traits en m n out) (hs : Simple en m n) (as : List Attr) (s : Node)
    (arms : List Node) (hb : Branches en m n (.mk .eMatch as (s :: arms)))
    (harms : ∀ a ∈ arms, ∃ p as gs b, a = .mk (.arm p) as (gs ++ [b]) ∧ gs.length ≤ 1) :
    ∃ s' arms', Alike en (resultIn out) (.mk .eMatch (strip as) (s' :: arms')) ∧
      (quiet m s = true → s' = s) ∧
      Aligned (fun arm arm' => ∃ p as gs b gs' b', arm = .mk (.arm p) as (gs ++ [b]) ∧
        arm' = .mk (.arm p) (strip as)
          (gs' ++ [if skipsArm m arm then b' else construct [] en "" b']) ∧
        gs'.length = gs.length ∧ (quietL m gs = true → gs' = gs) ∧
        (quiet m b = true → marked "nested" as = false → b' = b)) arms arms' :=
  (h.treats hs).parts _ _ _ _ _ _ hs as s arms hb harms

/-- The hypotheses of `C05` are met by `let x = match a { 0 => 1, _ => { .. marker!(y) } };` with an
inner attribute in the last arm; that arm is exempt since it ends in a marker. -/
example : Accepted Ex.env [.ofIdents ["Iterator"]] "__Enum5" "marker" Ex.letIn Ex.letOut ∧
    ∃ as s arms, Branches' "__Enum5" "marker" Ex.letIn (.mk .eMatch as (s :: arms)) ∧
    (∀ a ∈ arms, ∃ p as gs b, a = .mk (.arm p) as (gs ++ [b]) ∧ gs.length ≤ 1) ∧
    arms.map (exemptArm "marker") = [false, true] := by
  refine ⟨Ex.let_accepted, _, _, _,
    ⟨by decide +kernel, by decide +kernel, rfl, rfl, by decide +kernel, by decide +kernel⟩, ?_, ?_⟩
  · intro a ha
    simp only [List.mem_cons, List.not_mem_nil, or_false] at ha
    rcases ha with rfl | rfl
    · exact ⟨_, _, [], _, rfl, by simp⟩
    · exact ⟨_, _, [], _, rfl, by simp⟩
  · decide +kernel

/-- The hypotheses of `C05_parts` are met by a function that ends in a `match`. -/
example : Accepted Ex.env [.ofIdents ["Iterator"]] "__Enum5" "marker" Ex.fnIn Ex.fnOut ∧
    Simple "__Enum5" "marker" Ex.fnIn ∧
    ∃ as s arms, Branches "__Enum5" "marker" Ex.fnIn (.mk .eMatch as (s :: arms)) ∧
    (∀ a ∈ arms, ∃ p as gs b, a = .mk (.arm p) as (gs ++ [b]) ∧ gs.length ≤ 1) ∧
    arms.map (skipsArm "marker") = [false, true, false] := by
  refine ⟨Ex.fn_accepted, Ex.fn_simple, _, _, _,
    ⟨by decide +kernel, rfl, rfl, by decide +kernel⟩, ?_, by decide +kernel⟩
  intro a ha
  simp only [List.mem_cons, List.not_mem_nil, or_false] at ha
  rcases ha with rfl | rfl | rfl <;> exact ⟨_, _, [], _, rfl, by simp⟩

end AutoEnums
