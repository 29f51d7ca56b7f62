import Verif.Lemmas.Twice
import Verif.ExamplesAccepted

/-! # C12: markers -/

namespace AutoEnums

open Spec

theorem Treats.marker (b : Bool) (traits : List Path) (en : Ident) (m : String) (n out : Node)
    (h : Treats b traits en m n out) (hs : Simple en m n) (t : String) (as : List Attr) (e : Node)
    (hx : Inside (.mk (.eMacro (macroPath m) t) as [e]) n) :
    ∃ v, Within (construct (strip as) en v e) out := by
  obtain ⟨w, ts, r, x', _, h1, h2⟩ := h.within hs hx
  have hj : (jobOf en m n).en = en := jobOf_en en m n
  have ht : treat (jobOf en m n) w ts r (.mk (.eMacro (macroPath m) t) as [e]) =
      ctor (jobOf en m n) (strip as) e := by
    rw [treat.eq_def]
    simp only [assemble, carries, isExpression, if_true, jobOf_marker, macroPath]
  rw [ht] at h2
  have h2' : Alike (jobOf en m n).en x' (ctor (jobOf en m n) (strip as) e) := by rw [hj]; exact h2
  obtain ⟨v, e', rfl, h3⟩ := ctor_inv h2'
  rw [hj] at h1 h3
  have := fresh_blur e e' (fun l hl => (hs.start l (within_labels hx.1 l (by
    rw [labels_mk]
    exact List.mem_cons_of_mem _ (mem_labelsL.mpr ⟨e, by simp, hl⟩)))).2) h3
  subst this
  exact ⟨v, h1⟩

/-- C12, first part: what has been `m!(e)` becomes a call of a constructor on `e`, which is left as it
is, keeping the attributes of the macro call other than helper attributes.

Partial (all parts): for inputs without inner attributes; `C04` says for all inputs that nothing but
markers is replaced. -/
theorem C12_marker_partial (env : Env) (traits : List Path) (en : Ident) (m : String) (n out : Node)
    (h : Accepted env traits en m n out) (hs : Simple en m n) (t : String) (as : List Attr) (e : Node)
    (hx : Inside (.mk (.eMacro (macroPath m) t) as [e]) n) :
    ∃ v, Within (construct (strip as) en v e) out :=
  (h.treats hs).marker _ _ _ _ _ _ hs t as e hx

/-- C12, second part: the macro calls of the expansion are those of the input in the same order, except
that every `m!(e)` is replaced by the calls in `e`.  In particular all calls of other macros are
untouched, and no call of the marker remains that was not inside of a marker call. -/
theorem C12_macros_partial (env : Env) (traits : List Path) (en : Ident) (m : String) (n out : Node)
    (h : Accepted env traits en m n out) (hs : Simple en m n) :
    macrosOf (startOf out) = (macrosOf (startOf n)).flatMap (unmark m) := (h.treats hs).macros hs

/-- C12, third part: nothing is wrapped twice; no constructor is applied to a constructor call. -/
theorem C12_once_partial (env : Env) (traits : List Path) (en : Ident) (m : String) (n out : Node)
    (h : Accepted env traits en m n out) (hs : Simple en m n) (as : List Attr) (v : Ident) (e : Node)
    (hw : Within (construct as en v e) out) : ¬ IsConstruct en e :=
  not_twice ((h.treats hs).notDoubled hs) as v e hw

/-! ## Where it fails -/

/-- A marker inside the tokens of a marker stays: `marker!(marker!(x))` becomes
`__Enum::__Variant0(marker!(x))`.  (`visitor.rs:143-170` does not visit the parsed expression.) -/
theorem C12_tokens_fails :
    ∃ out, autoEnum Ex.env 20 5 Ex.iterator (.expr (exprBlock [semiS (Ex.marker (Ex.marker (Ex.var "x"))),
        tailS (Ex.marker (Ex.var "y"))])) = .code out ∧
      decide (macrosOf (startOf out) = [Ex.marker (Ex.var "x")]) = true :=
  Ex.of_check (by decide +kernel)

/-- A marker with braces at the end of a block is a statement for the parser, and stays:
`{ y; marker! { x } }`.  (`visitor.rs:352`.) -/
theorem C12_statement_fails :
    ∃ out, autoEnum Ex.env 20 5 Ex.iterator (.expr (.mk .eMatch [] [Ex.var "a", Ex.arm "0" (Ex.lit "1"),
        Ex.arm "1" (Ex.lit "2"), Ex.arm "_" (exprBlock [semiS (Ex.var "y"),
          .mk (.sMacro (.ofIdents ["marker"]) "x") [] []])])) = .code out ∧
      decide (macrosOf (startOf out) = [.mk (.sMacro (.ofIdents ["marker"]) "x") [] []]) = true :=
  Ex.of_check (by decide +kernel)

/-! ## A case that meets the hypotheses -/

/-- ```
fn f() -> impl Iterator {
    if c { return marker!(1); }
    let g = || { println!("2"); };
    match a {
        0 => #[inline] #[never] marker!(3),
        1 => panic!(),
        2 => loop { break 4 },
        _ => marker!(vec!(5)),
    }
}
``` -/
def Ex.marksBody : List Node :=
  [semiS (.mk .eIf [] [Ex.var "c", .mk .block [] [semiS (.mk .eReturn [] [Ex.marker (Ex.lit "1")])]]),
   .mk (.sLocal (.plain "g")) [] [.mk (.eClosure "||") [] [exprBlock [.mk (.sMacro (.ofIdents ["println"]) "2") [] []]]],
   tailS (.mk .eMatch [] [Ex.var "a",
     Ex.arm "0" (.mk (.eMacro (macroPath "marker") "3") [Ex.helper "inline", Ex.helper "never"] [Ex.lit "3"]),
     Ex.arm "1" (.mk (.eMacro (.ofIdents ["panic"]) "") [] []),
     Ex.arm "2" (.mk (.eLoop none) [] [.mk .block [] [tailS (.mk (.eBreak none) [] [Ex.lit "4"])]]),
     Ex.arm "_" (Ex.marker (.mk (.eMacro (.ofIdents ["vec"]) "5") [] [Ex.lit "5"]))])]
def Ex.marksIn : Node := .mk (.iFn "f" (some Ex.implIter)) [] [.mk .block [] Ex.marksBody]

example : ∃ out, Accepted Ex.env [.ofIdents ["Iterator"]] "__Enum5" "marker" Ex.marksIn out ∧
    Simple "__Enum5" "marker" Ex.marksIn ∧
    Inside (.mk (.eMacro (macroPath "marker") "3") [Ex.helper "inline", Ex.helper "never"] [Ex.lit "3"])
      Ex.marksIn ∧
    (macrosOf (startOf Ex.marksIn)).length = 5 ∧ (macrosOf (startOf out)).length = 3 ∧
    ∃ v, Within (construct [Ex.helper "inline"] "__Enum5" v (Ex.lit "3")) out := by
  obtain ⟨out, h, hp⟩ := Ex.of_check (o := autoEnum Ex.env 20 5 Ex.iterator (.stmt Ex.marksIn))
    (p := fun out => decide ((macrosOf (startOf out)).length = 3)) (by decide +kernel)
  have ha := Ex.accepted_stmt rfl h
  have hs : Simple "__Enum5" "marker" Ex.marksIn := ⟨by decide +kernel, by decide +kernel, by decide +kernel⟩
  have hi : Inside (.mk (.eMacro (macroPath "marker") "3") [Ex.helper "inline", Ex.helper "never"]
      [Ex.lit "3"]) Ex.marksIn := by
    refine ⟨?_, fun h => absurd h (by decide +kernel)⟩
    exact .kid (c := Ex.marksBody[2]) rfl (by simp [Ex.marksBody]) (.kid rfl (List.mem_singleton.mpr rfl)
      (.kid (c := Ex.arm "0" _) rfl (by simp) (.one rfl (List.mem_singleton.mpr rfl))))
  exact ⟨out, ha, hs, hi, by decide +kernel, by simpa using hp, C12_marker_partial _ _ _ _ _ _ ha hs _ _ _ hi⟩

end AutoEnums
