import Verif.Lemmas.Break
import Verif.ExamplesAccepted

/-! # C07: the `break`s of a loop in result position -/

namespace AutoEnums

open Spec

theorem treat_loop {J : Job} {w : Where} {ts : List Target} {l : Option String} {as : List Attr}
    {b : Node} (hb : J.branches = true) (hd : diverges J.marker (.mk (.eLoop l) as [b]) = false) :
    treat J w ts .result (.mk (.eLoop l) as [b]) = .mk (.eLoop l) (strip as)
      [treat J w (⟨l, true, true⟩ :: through ts (.eLoop l) as) .plain b] := by
  rw [treat.eq_def]
  simp only [role_result hb hd, hidesCode, assemble, carries, isExpression, treatL, Where.enter]
  simp only [kidRole, kidTargets, Bool.false_eq_true, if_false, if_true, decide_true]

/-- The `break`s of a loop in result position, given what the treatment does to those of its body. -/
theorem Treats.breaksAs {b : Bool} {traits : List Path} {en : Ident} {m : String} {n out : Node}
    (h : Treats b traits en m n out) (hs : Simple en m n) {l : Option String} {as : List Attr}
    {body : Node} (hb : Branches en m n (.mk (.eLoop l) as [body])) {bs : List Brk}
    (hv : bs.map (·.value) = brkVals body)
    (hf : ∀ ts : List Target, noneOurs ts → Aligned (Fate0 (jobOf en m n)) bs
      (brkVals (treat (jobOf en m n) {} (⟨l, true, true⟩ :: ts) .plain body))) :
    ∃ as' body', resultIn out = .mk (.eLoop l) as' [body'] ∧
      Aligned (Brk.Fate en m) bs (breaksIn l body') := by
  obtain ⟨ts, hts, ha⟩ := h.result hs hb
  have hm := jobOf_marker en m n
  have hen : (jobOf en m n).en = en := jobOf_en en m n
  have hJ := hb.job
  rw [treat_loop hJ (by rw [hm]; exact hb.live)] at ha
  have hlab : ∀ l ∈ labels body, isCtor en l = 0 := by
    intro x hx
    refine (hs.result x ?_).2
    rw [hb.result]
    simp [hx]
  have hfate := hf _ (hts.through (.eLoop l) as)
  generalize hr : resultIn out = r at ha
  obtain ⟨k, as', ks⟩ := r
  unfold Alike at ha
  rw [blur, blur] at ha
  injection ha with ha1 ha2 ha3
  have hk : k = .eLoop l := by
    by_cases hp : ∃ p, k = .ePath false p
    · obtain ⟨p, rfl⟩ := hp
      rw [blurK_blurPath] at ha1
      cases ha1
    · rw [blurK_other en fun p h => hp ⟨p, h⟩] at ha1
      exact ha1
  subst hk
  rcases ks with _ | ⟨body', _ | ⟨_, _⟩⟩
  · cases ha3
  · simp only [blurL, List.cons.injEq, and_true] at ha3
    refine ⟨as', body', rfl, ?_⟩
    have := fate_out hfate (l' := breaksIn l body') (by
      rw [hen, ← brkVals_blur, ← ha3, brkVals_blur, breaksIn, ← breaks_vals body' [⟨l, true, true⟩] false false,
        List.map_map]
      rfl) ?_
    · rw [hen, hm] at this
      exact this
    · intro a ha v hv2
      have h1 : some (.call (variantPath (jobOf en m n).en v)) ∈ brkVals body := by
        rw [← hv, ← hv2]
        exact List.mem_map_of_mem ha
      obtain ⟨as, h2⟩ := brkVals_call body h1
      have := hlab _ h2
      rw [hen] at this
      simp [isCtor, variantPath] at this
  · simp [blurL] at ha3

theorem hits_ours {ts : List Target} (h : noneOurs ts) (l lab : Option String) :
    hits [⟨l, true, true⟩] lab = hits (⟨l, true, true⟩ :: ts) lab := by
  have h0 := hits_noneOurs h
  cases lab <;> simp only [hits] <;> split <;> simp [h0]

theorem Treats.breaks (b : Bool) (traits : List Path) (en : Ident) (m : String) (n out : Node)
    (h : Treats b traits en m n out) (hs : Simple en m n) (l : Option String) (as : List Attr)
    (body : Node) (hb : Branches en m n (.mk (.eLoop l) as [body]))
    (hn : hasNested [body] = false) :
    ∃ as' body', resultIn out = .mk (.eLoop l) as' [body'] ∧
      Aligned (Brk.Fate en m) (breaksIn l body) (breaksIn l body') := by
  refine h.breaksAs hs hb (breaks_vals body [⟨l, true, true⟩] false false) fun ts hts => ?_
  refine breaks_treat body {} [⟨l, true, true⟩] _ false (fun lab => ?_) (calm_of (en := en) ?_ hn)
  · rw [← hits_ours hts]; simp
  · intro x hx
    refine hs.result x ?_
    rw [hb.result]
    simp [hx]

theorem Treats.resultBreaks (b : Bool) (traits : List Path) (en : Ident) (m : String) (n out : Node)
    (h : Treats b traits en m n out) (hs : Simple en m n) (l : Option String) (as : List Attr)
    (body : Node) (hb : Branches en m n (.mk (.eLoop l) as [body])) :
    ∃ as' body', resultIn out = .mk (.eLoop l) as' [body'] ∧
      Aligned (Brk.Fate en m) (resultBreaks (jobOf en m n) l body) (breaksIn l body') := by
  refine h.breaksAs hs hb (nestedBreaks_vals _ body [⟨l, true, true⟩] .plain false) fun ts hts => ?_
  refine nestedBreaks_treat body {} [⟨l, true, true⟩] _ .plain (fun lab => hits_ours hts l lab) (flat_of ?_)
  intro x hx
  refine (hs.result x ?_).1
  rw [hb.result]
  simp [hx]

/-- C07, for inputs without inner attributes: if the value of an input is that of a `loop` without
`#[nested]` in it, then the value of the expansion is that of a loop with the same label, and its
`break`s are, in order, those of the original, where the values of those that leave the loop and are not
marker calls or under `#[never]` have become constructor calls and all others are as before (except
that markers are replaced).

Partial, since `Simple` excludes labels that shadow each other and `break`s in the iterated expression
of a `for`: see `C07_shadow_fails` and `C07_for_fails`. -/
theorem C07_partial (env : Env) (traits : List Path) (en : Ident) (m : String) (n out : Node)
    (h : Accepted env traits en m n out) (hs : Simple en m n) (l : Option String) (as : List Attr)
    (body : Node) (hb : Branches en m n (.mk (.eLoop l) as [body]))
    (hn : hasNested [body] = false) :
    ∃ as' body', resultIn out = .mk (.eLoop l) as' [body'] ∧
      Aligned (Brk.Fate en m) (breaksIn l body) (breaksIn l body') :=
  (h.treats hs).breaks _ _ _ _ _ _ hs l as body hb hn

/-- C07 for loops that contain `#[nested]`: exactly those `break`s are wrapped that leave the loop, or a loop
inside of it that is itself in result position because of `#[nested]`, and are not marker calls or under
`#[never]`.  Partial as `C07_partial` is. -/
theorem C07_nested_partial (env : Env) (traits : List Path) (en : Ident) (m : String) (n out : Node)
    (h : Accepted env traits en m n out) (hs : Simple en m n) (l : Option String) (as : List Attr)
    (body : Node) (hb : Branches en m n (.mk (.eLoop l) as [body])) :
    ∃ as' body', resultIn out = .mk (.eLoop l) as' [body'] ∧
      Aligned (Brk.Fate en m) (resultBreaks (jobOf en m n) l body) (breaksIn l body') :=
  (h.treats hs).resultBreaks _ _ _ _ _ _ hs l as body hb

/-! ## Where the rule fails -/

def Ex.brk (l : Option String) (e : String) : Node := .mk (.eBreak l) [] [Ex.lit e]

/-- `{ 'a: loop { break 'a 1 }; if c { break 2 } break 'a 3 }` -/
def Ex.shadowBody : Node := .mk .block [] [
  semiS (.mk (.eLoop (some "a")) [] [.mk .block [] [tailS (Ex.brk (some "a") "1")]]),
  tailS (.mk .eIf [] [Ex.var "c", .mk .block [] [tailS (Ex.brk none "2")]]),
  tailS (Ex.brk (some "a") "3")]

/-- In `'a: loop { 'a: loop { break 'a 1 }; .. }` the inner `break` leaves the inner loop, but it is
wrapped.  (`expr.rs:155-163, 181-185`: labels are compared by name only.) -/
theorem C07_shadow_fails :
    (breaksIn (some "a") Ex.shadowBody).map (·.leaves) = [false, true, true] ∧
    ∃ out, autoEnum Ex.env 20 5 Ex.iterator
        (.expr (.mk (.eLoop (some "a")) [] [Ex.shadowBody])) = .code out ∧
      (match resultIn out with
        | .mk (.eLoop _) _ [b] => (breaksIn (some "a") b).map (·.value) ==
            ["__Variant0", "__Variant1", "__Variant2"].map fun v => some (.call (variantPath "__Enum5" v))
        | _ => false) = true :=
  ⟨by decide +kernel, Ex.of_check (by decide +kernel)⟩

/-- `{ for i in { break 1 } {} if c { break 2 } break 3 }` -/
def Ex.headBody : Node := .mk .block [] [
  semiS (.mk (.eForLoop none "i") [] [exprBlock [tailS (Ex.brk none "1")], .mk .block [] []]),
  tailS (.mk .eIf [] [Ex.var "c", .mk .block [] [tailS (Ex.brk none "2")]]),
  tailS (Ex.brk none "3")]

/-- In `loop { for i in { break 1 } {} .. }` the first `break` leaves the loop, but it is not wrapped.
(`expr.rs:174-180`: nothing of an inner loop is visited.) -/
theorem C07_for_fails :
    (breaksIn none Ex.headBody).map (·.leaves) = [true, true, true] ∧
    ∃ out, autoEnum Ex.env 20 5 Ex.iterator (.expr (.mk (.eLoop none) [] [Ex.headBody])) = .code out ∧
      (match resultIn out with
        | .mk (.eLoop _) _ [b] => (breaksIn none b).map (·.value) ==
            [some .other, some (.call (variantPath "__Enum5" "__Variant0")),
              some (.call (variantPath "__Enum5" "__Variant1"))]
        | _ => false) = true :=
  ⟨by decide +kernel, Ex.of_check (by decide +kernel)⟩

/-! ## A case that meets the hypotheses -/

/-- ```
{
    'b: loop { break 'b 0; break 'a 1; }
    if c { #[never] break 'a 2 }
    || { break 3 };
    break marker!(4);
    break 5
}
``` -/
def Ex.loopBody : Node := .mk .block [] [
  semiS (.mk (.eLoop (some "b")) [] [.mk .block [] [semiS (Ex.brk (some "b") "0"),
    semiS (Ex.brk (some "a") "1")]]),
  tailS (.mk .eIf [] [Ex.var "c", .mk .block [] [tailS (.mk (.eBreak (some "a")) [Ex.helper "never"]
    [Ex.lit "2"])]]),
  semiS (.mk (.eClosure "") [] [exprBlock [tailS (Ex.brk none "3")]]),
  semiS (.mk (.eBreak none) [] [Ex.marker (Ex.lit "4")]),
  tailS (Ex.brk none "5")]

def Ex.loopIn : Node := .mk (.eLoop (some "a")) [] [Ex.loopBody]

/-- The hypotheses of `C07_partial` are met by `'a: loop { .. }` with this body, of whose six `break`s
the second and the last are ours. -/
example : ∃ out, Accepted Ex.env [.ofIdents ["Iterator"]] "__Enum5" "marker" Ex.loopIn out ∧
    Simple "__Enum5" "marker" Ex.loopIn ∧
    Branches "__Enum5" "marker" Ex.loopIn (.mk (.eLoop (some "a")) [] [Ex.loopBody]) ∧
    hasNested [Ex.loopBody] = false ∧
    (breaksIn (some "a") Ex.loopBody).map (Brk.ours "marker") =
      [false, true, false, false, false, true] := by
  obtain ⟨out, h, _⟩ := Ex.of_check (o := autoEnum Ex.env 20 5 Ex.iterator (.expr Ex.loopIn))
    (p := fun _ => true) (by decide +kernel)
  exact ⟨out, Ex.accepted_expr rfl h, ⟨by decide +kernel, by decide +kernel, by decide +kernel⟩,
    ⟨by decide +kernel, rfl, rfl, by decide +kernel⟩, by decide +kernel, by decide +kernel⟩

/-- ```
{
    #[nested] let x = loop { if c { break 'a 1 } break 2 };
    loop { break 3 }
    #[never] { 'b: loop { break 'a 4; #[nested] loop { break 5; break 'b 6 } } }
    break x
}
``` -/
def Ex.nestedLoopBody : Node := .mk .block [] [
  .mk (.sLocal (.plain "x")) [Ex.helper "nested"] [.mk (.eLoop none) [] [.mk .block [] [
    tailS (.mk .eIf [] [Ex.var "c", .mk .block [] [tailS (Ex.brk (some "a") "1")]]), tailS (Ex.brk none "2")]]],
  tailS (.mk (.eLoop none) [] [.mk .block [] [tailS (Ex.brk none "3")]]),
  tailS (.mk (.eBlock none) [Ex.helper "never"] [tailS (.mk (.eLoop (some "b")) [] [.mk .block [] [
    semiS (Ex.brk (some "a") "4"),
    tailS (.mk (.eLoop none) [Ex.helper "nested"] [.mk .block [] [semiS (Ex.brk none "5"),
      semiS (Ex.brk (some "b") "6")]])]])]),
  tailS (.mk (.eBreak none) [] [Ex.var "x"])]

def Ex.nestedLoopIn : Node := .mk (.eLoop (some "a")) [] [Ex.nestedLoopBody]

/-- The hypotheses of `C07_nested_partial` are met by `'a: loop { .. }` with this body, of whose seven `break`s
the third leaves an ordinary loop, the fourth is under `#[never]`, the sixth leaves an ordinary loop. -/
example : ∃ out, Accepted Ex.env [.ofIdents ["Iterator"]] "__Enum5" "marker" Ex.nestedLoopIn out ∧
    Simple "__Enum5" "marker" Ex.nestedLoopIn ∧
    Branches "__Enum5" "marker" Ex.nestedLoopIn (.mk (.eLoop (some "a")) [] [Ex.nestedLoopBody]) ∧
    hasNested [Ex.nestedLoopBody] = true ∧
    (resultBreaks (jobOf "__Enum5" "marker" Ex.nestedLoopIn) (some "a") Ex.nestedLoopBody).map
      (Brk.ours "marker") = [true, true, false, false, true, false, true] := by
  obtain ⟨out, h, _⟩ := Ex.of_check (o := autoEnum Ex.env 20 5 Ex.iterator (.expr Ex.nestedLoopIn))
    (p := fun _ => true) (by decide +kernel)
  exact ⟨out, Ex.accepted_expr rfl h, ⟨by decide +kernel, by decide +kernel, by decide +kernel⟩,
    ⟨by decide +kernel, rfl, rfl, by decide +kernel⟩, by decide +kernel, by decide +kernel⟩

end AutoEnums
