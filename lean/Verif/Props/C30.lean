import Verif.Props.C05
import Verif.Lemmas.Nested

/-! # C30: which paths are recognised as diverging -/

namespace AutoEnums

open Spec

namespace Spec

/-- The path `p` is written as the last name of `full` alone, or as the whole of `full` after `std::` or
`core::`.  (A leading `::` and generic arguments are not looked at.) -/
def Spells (p : Path) (full : List Ident) : Prop :=
  p.segs.map (·.ident) = full.drop (full.length - 1) ∨
    ∃ c, (c = "std" ∨ c = "core") ∧ p.segs.map (·.ident) = c :: full

/-- `b` is a call of a macro other than the marker, `path?` or `path(e)?`, and `known` says how the path
must be written for the expression to be recognised as diverging. -/
inductive Probe (m : String) : Node → Prop → Prop where
  | mac : p ≠ macroPath m →
      Probe m (.mk (.eMacro p t) [] ks) (Spells p ["panic"] ∨ Spells p ["unreachable"])
  | none : Probe m (.mk .eTry [] [.mk (.ePath false p) [] []]) (Spells p ["option", "Option", "None"])
  | err : quiet m e = true →
      Probe m (.mk .eTry [] [.mk .eCall [] [.mk (.ePath false p) [] [], e]])
        (Spells p ["result", "Result", "Err"])

end Spec

theorem jobOf_tries {en : Ident} {m : String} {n : Node} (h : (jobOf en m n).branches = true) :
    (jobOf en m n).tries = false := by
  unfold jobOf at *
  split at h
  · unfold fnJob at *
    split <;> simp_all
    split <;> simp_all
  · simp [exprJob]
  · unfold jobOfExpr at *
    split at h
    · unfold closureJob at *
      split <;> simp_all
    · simp [exprJob]

theorem visibleL_append (a b : List Node) : visibleL (a ++ b) = visibleL a ++ visibleL b := by
  induction a with
  | nil => rfl
  | cons x a ih => simp [visibleL, ih]

theorem spells_mac (p : Path) (m : String) (h : p ≠ macroPath m) :
    (Spells p ["panic"] ∨ Spells p ["unreachable"]) ↔ divergingMacro m p = true := by
  have h' : ¬ p = ⟨false, [⟨m, Option.none⟩]⟩ := h
  simp only [Spells, divergingMacro, isOneOf, List.contains_iff_mem, List.mem_cons, List.not_mem_nil,
    or_false, Bool.or_eq_true, beq_iff_eq, h', List.length, Nat.sub_self, List.drop]
  constructor
  · rintro ((h | ⟨c, rfl | rfl, h⟩) | (h | ⟨c, rfl | rfl, h⟩)) <;> simp_all
  · rintro (h | h | h | h | h | h) <;> simp [h]

theorem spells_three (p : Path) (a b c : Ident) : Spells p [a, b, c] ↔
    isOneOf [[c], ["std", a, b, c], ["core", a, b, c]] p = true := by
  simp only [Spells, isOneOf, List.contains_iff_mem, List.mem_cons, List.not_mem_nil,
    or_false, List.length, Nat.add_one_sub_one, List.drop]
  constructor
  · rintro (h | ⟨c, rfl | rfl, h⟩) <;> simp_all
  · rintro (h | h | h) <;> simp [h]

theorem treat_try {J : Job} (hJ : J.tries = false) {w : Where} {ts : List Target} (hts : noneOurs ts) (e : Node)
    (he : quiet J.marker e = true) : treat J w ts .plain (.mk .eTry [] [e]) = .mk .eTry [] [e] := by
  have hr : role J .plain .eTry [] [e] = .plain := by simp [role, marked]
  rw [treat.eq_def]
  simp only [hr, hidesCode, treatL, Bool.false_eq_true, if_false, kidRole, kidTargets]
  rw [treat_quiet _ _ _ (hts.through _ _) he]
  simp [assemble, hJ, carries, isExpression, strip, dropFirst]

theorem Spec.Probe.spec {m : String} {b : Node} {known : Prop} (h : Probe m b known) :
    (known ↔ diverges m b = true) ∧ hasNested [b] = false ∧
    ∀ (J : Job) (ts : List Target), J.marker = m → J.tries = false → noneOurs ts →
      treat J {} ts .plain b = b := by
  cases h with
  | @mac p t ks hp =>
    refine ⟨?_, by simp [hasNested, visibleL, visible, hidesCode, marked], fun J ts hm _ hts => ?_⟩
    · rw [spells_mac p m hp, diverges.eq_def]
      simp [marked]
    · apply treat_quiet _ _ _ hts
      rw [quiet_mk, hm]
      simp only [quietHere, hidesCode, Bool.true_or, Bool.and_true, List.all_nil, bne_iff_ne]
      exact hp
  | @none p =>
    refine ⟨?_, by simp [hasNested, visibleL, visible, hidesCode, marked], fun J ts hm hJ hts => ?_⟩
    · rw [spells_three, diverges.eq_def]
      simp [marked, failing]
    · exact treat_try hJ hts _ (by simp [quiet, visible, visibleL, hidesCode, quietHere])
  | @err e p he =>
    have hn : hasNested [e] = false := by
      have h1 := he
      simp only [quiet, List.all_eq_true] at h1
      simp only [hasNested, visibleL, List.append_nil, List.any_eq_false, Bool.and_eq_true, not_and]
      intro l hl _ hm
      have h2 := h1 l hl
      simp only [quietHere, Bool.and_eq_true, List.all_eq_true] at h2
      simp only [marked, List.any_eq_true] at hm
      obtain ⟨a, ha, hb⟩ := hm
      have := (h2.2 a ha).2
      simp [named] at this
      simp_all
    refine ⟨?_, ?_, fun J ts hm hJ hts => ?_⟩
    · rw [spells_three, diverges.eq_def]
      simp [marked, failing]
    · simp only [hasNested, visibleL, visible, hidesCode, marked, List.append_nil] at hn ⊢
      simpa using hn
    · refine treat_try hJ hts _ ?_
      rw [hm, quiet_mk, quietL_cons, quietL_cons, quiet_mk, he]
      simp [quietHere, hidesCode, quietL, visibleL]

theorem Treats.probes (b : Bool) (traits : List Path) (en : Ident) (m : String) (n out : Node)
    (h : Treats b traits en m n out) (hs : Simple en m n) (as : List Attr) (s : Node)
    (arms : List Node) (hb : Branches en m n (.mk .eMatch as (s :: arms)))
    (harms : ∀ a ∈ arms, ∃ p as gs b, a = .mk (.arm p) as (gs ++ [b]) ∧ gs.length ≤ 1) :
    ∃ as' s' arms', resultIn out = .mk .eMatch as' (s' :: arms') ∧
      Aligned (fun arm arm' => ∀ p gs b known, arm = .mk (.arm p) [] (gs ++ [b]) →
        hasNested gs = false → Probe m b known →
        ∃ gs' b', arm' = .mk (.arm p) [] (gs' ++ [b']) ∧ gs'.length = gs.length ∧
          (known → b' = b) ∧ (¬known → ∃ v, b' = construct [] en v b)) arms arms' := by
  obtain ⟨ts, hts, ha⟩ := h.result hs hb
  have hm := jobOf_marker en m n
  have hen : (jobOf en m n).en = en := jobOf_en en m n
  have hJ := hb.job
  have htr := jobOf_tries hJ
  rw [treat_match hJ (by rw [hm]; exact hb.live)] at ha
  have hz := hs.result
  rw [hb.result] at hz
  obtain ⟨ks, h1, h2⟩ := ha.rigid (by simp)
  obtain ⟨s', arms', rfl, _, h3⟩ := alikeL_inv h2
  refine ⟨_, s', arms', h1, ?_⟩
  have hts' := hts.through .eMatch as
  have hz' : ∀ a ∈ arms, ∀ l ∈ labels a, isCtor en l = 0 := fun a ha =>
    zero_kid (fun l hl => (hz l hl).2) (by simp [ha])
  generalize through ts .eMatch as = ts' at *
  clear hb ha h h1 h2 hz
  induction arms generalizing arms' with
  | nil => cases alikeL_nil h3; exact .nil
  | cons a arms ih =>
    rw [List.map_cons] at h3
    obtain ⟨a', arms'', rfl, h4, h5⟩ := alikeL_inv h3
    refine .cons ?_ (ih (fun a h => harms a (by simp [h])) arms'' (fun a h => hz' a (by simp [h])) h5)
    rintro p gs b known rfl hg hp
    obtain ⟨_, _, gs1, b1, h6, hl⟩ := harms _ List.mem_cons_self
    injection h6 with _ _ h6
    obtain ⟨rfl, h7⟩ := List.append_inj' h6 rfl
    cases h7
    rw [treat_arm hJ hl, hm] at h4
    obtain ⟨hd, hnb, htreat⟩ := hp.spec
    have hsk : skipsArm m (.mk (.arm p) [] (gs ++ [b])) = diverges m b := by
      have : hasNested [.mk (.arm p) [] (gs ++ [b])] = false := by
        simp only [hasNested, visibleL, visible, hidesCode, List.append_nil, List.any_cons,
          Bool.false_eq_true, if_false, visibleL_append, List.any_append] at hg hnb ⊢
        rw [hg, hnb]
        simp [marked]
      simp [skipsArm, this, marked]
    rw [hsk] at h4
    have hbz : ∀ l ∈ labels b, isCtor en l = 0 := zero_kid (hz' _ List.mem_cons_self) (by simp)
    obtain ⟨ks', rfl, h8⟩ := h4.rigid (by simp)
    obtain ⟨gs', bs', rfl, h9, h10⟩ := alikeL_append h8
    obtain ⟨b', r, rfl, h11, h12⟩ := alikeL_inv h10
    cases alikeL_nil h12
    refine ⟨gs', b', rfl, by simpa using h9.length, fun hk => ?_, fun hk => ?_⟩
    · rw [hd.mp hk] at h11
      simp only [if_true, marked, List.any_nil, Bool.false_eq_true, if_false] at h11
      rw [htreat _ _ hm htr hts'] at h11
      exact fresh_blur b b' hbz h11
    · rw [Bool.eq_false_iff.mpr fun h => hk (hd.mpr h)] at h11
      simp only [Bool.false_eq_true, if_false] at h11
      rw [htreat _ _ hm htr hts'] at h11
      have h11' : Alike (jobOf en m n).en b' (ctor (jobOf en m n) [] b) := by rw [hen]; exact h11
      obtain ⟨v, y, rfl, h13⟩ := ctor_inv h11'
      rw [hen] at h13 ⊢
      cases fresh_blur b y hbz h13
      exact ⟨v, rfl⟩

/-- C30, for arms of a `match` in result position: an arm `pattern => p!(..)` where `p` is not the marker
is left exactly as it is if `p` spells `panic` or `unreachable`, alone or after `std::` or `core::`, and
is wrapped otherwise; the same for `p?` and `None`, and for `p(e)?` and `Err`.

For inputs without inner attributes; C05 says for all inputs which arms are wrapped. -/
theorem C30 (env : Env) (traits : List Path) (en : Ident) (m : String) (n out : Node)
    (h : Accepted env traits en m n out) (hs : Simple en m n) (as : List Attr) (s : Node)
    (arms : List Node) (hb : Branches en m n (.mk .eMatch as (s :: arms)))
    (harms : ∀ a ∈ arms, ∃ p as gs b, a = .mk (.arm p) as (gs ++ [b]) ∧ gs.length ≤ 1) :
    ∃ as' s' arms', resultIn out = .mk .eMatch as' (s' :: arms') ∧
      Aligned (fun arm arm' => ∀ p gs b known, arm = .mk (.arm p) [] (gs ++ [b]) →
        hasNested gs = false → Probe m b known →
        ∃ gs' b', arm' = .mk (.arm p) [] (gs' ++ [b']) ∧ gs'.length = gs.length ∧
          (known → b' = b) ∧ (¬known → ∃ v, b' = construct [] en v b)) arms arms' :=
  (h.treats hs).probes _ _ _ _ _ _ hs as s arms hb harms

/-! ## A case that meets the hypotheses -/

/-- ```
match a {
    0 => core::panic!("x"), 1 => other::panic!("x"), 2 => std::option::Option::None?,
    3 => option::None?, 4 => Err(y)?, 5 => std::Err(y)?
}
``` -/
def Ex.probes : List Node :=
  [.mk (.eMacro (.ofIdents ["core", "panic"]) "x") [] [],
   .mk (.eMacro (.ofIdents ["other", "panic"]) "x") [] [],
   .mk .eTry [] [pathE (.ofIdents ["std", "option", "Option", "None"])],
   .mk .eTry [] [pathE (.ofIdents ["option", "None"])],
   .mk .eTry [] [.mk .eCall [] [pathE (.ofIdents ["Err"]), Ex.var "y"]],
   .mk .eTry [] [.mk .eCall [] [pathE (.ofIdents ["std", "Err"]), Ex.var "y"]]]
def Ex.probeIn : Node := .mk .eMatch [] (Ex.var "a" :: Ex.probes.map (Ex.arm "_"))

example : ∃ out, Accepted Ex.env [.ofIdents ["Iterator"]] "__Enum5" "marker" Ex.probeIn out ∧
    Simple "__Enum5" "marker" Ex.probeIn ∧ Branches "__Enum5" "marker" Ex.probeIn Ex.probeIn ∧
    Ex.probes.map (diverges "marker") = [true, false, true, false, true, false] ∧
    (∀ b ∈ Ex.probes, ∃ known, Probe "marker" b known) := by
  obtain ⟨out, h, _⟩ := Ex.of_check (o := autoEnum Ex.env 20 5 Ex.iterator (.expr Ex.probeIn))
    (p := fun _ => true) (by decide +kernel)
  refine ⟨out, Ex.accepted_expr rfl h, ⟨by decide +kernel, by decide +kernel, by decide +kernel⟩,
    ⟨by decide +kernel, rfl, rfl, by decide +kernel⟩, by decide +kernel, ?_⟩
  intro b hb
  simp only [Ex.probes, List.mem_cons, List.not_mem_nil, or_false] at hb
  rcases hb with rfl | rfl | rfl | rfl | rfl | rfl
  · exact ⟨_, .mac (by decide)⟩
  · exact ⟨_, .mac (by decide)⟩
  · exact ⟨_, .none⟩
  · exact ⟨_, .none⟩
  · exact ⟨_, .err (by decide)⟩
  · exact ⟨_, .err (by decide)⟩

end AutoEnums
