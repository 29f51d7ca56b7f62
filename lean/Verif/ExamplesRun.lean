import Verif.Spec.Diverge
import Verif.ExamplesAccepted

/-! # A concrete machine and concrete runs -/

namespace AutoEnums.Ex

open Spec

/-- Values are strings and the state is the value of all variables.  A literal stands for itself, a call
returns the value of its first argument, and a `for` has no rounds. -/
def machine : Machine String String where
  unit := "()"
  step k vs s :=
    match k, vs with
    | .eLit l, _ => .done (.base l) s
    | .ePath _ _, _ => .done (.base s) s
    | .eCall, [] => .kid 1 s
    | .eCall, v :: _ => .done v s
    | .eTry, v :: _ => .done v s
    | .eMethodCall _, v :: _ => .done v s
    | .sLocal _, .base b :: _ => .done (.base b) b
    | _, _ => .done (.base "?") s
  test p v s := (p == "_" || v == .base p, s)
  truth v _ := v == .base "true"
  frozen _ _ s := (some (.base "code"), s)
  none := .base "None"
  err _ := .base "Err"
  fails v := v == .base "None" || v == .base "Err"
  fails_none := by decide
  fails_err _ := by decide
  tried _ v := v

/-- `loop { match x { 0 => { y; break 1 } 1 => panic!(), 2 => break 2, _ => return 3 } }` -/
def loopRunIn : Node := .mk (.eLoop none) [] [.mk .block [] [tailS (.mk .eMatch [] [var "x",
  arm "0" (exprBlock [semiS (var "y"), tailS (.mk (.eBreak none) [] [lit "1"])]),
  arm "1" (.mk (.eMacro (.ofIdents ["panic"]) "") [] []),
  arm "2" (.mk (.eBreak none) [] [lit "2"]),
  arm "_" (.mk .eReturn [] [lit "3"])])]]

/-- `match x { 0 => 'a: { break 'a 1 }, 1 => 2, _ => 3 }` -/
def labelIn : Node := .mk .eMatch [] [var "x",
  arm "0" (.mk (.eBlock (some "a")) [] [tailS (.mk (.eBreak (some "a")) [] [lit "1"])]),
  arm "1" (lit "2"), arm "_" (lit "3")]

/-- `match x { 0 => { y; fn f() {} }, 1 => 2, _ => 3 }` -/
def itemIn : Node := .mk .eMatch [] [var "x",
  arm "0" (exprBlock [semiS (var "y"), .mk (.sItem (.user "fn f() {}")) [] []]),
  arm "1" (lit "2"), arm "_" (lit "3")]

/-- Values are strings, `Ok(..)` and `Err(..)`; the state is the name of the only variable that has an
`Err(..)`, and the values of the variables bound by patterns. -/
def resMachine : Machine String (String × List (Value String)) where
  unit := "()"
  step k vs s :=
    match k, vs, s with
    | .eLit l, _, s => .done (.base l) s
    | .eTry, .inj _ v :: _, s => .done v s
    | .ePath _ ⟨_, [⟨x, _⟩]⟩, _, (y, b) =>
      if x = "val" ∨ x = "err" then
        match b with
        | v :: b => .done v (y, b)
        | [] => .panic (y, b)
      else .done (if x = y then .inj "Err" (.base x) else .inj "Ok" (.base x)) (y, b)
    | _, _, s => .done (.base "?") s
  test p v s :=
    match v with
    | .inj "Ok" v => if p = "::core::result::Result::Ok(val)" then (true, s.1, v :: s.2) else (false, s)
    | .inj "Err" v => if p = "::core::result::Result::Err(err)" then (true, s.1, v :: s.2) else (false, s)
    | _ => (p = "_", s)
  truth v _ := v == .base "true"
  frozen _ _ s := (some (.base "code"), s)
  none := .base "None"
  err v := .inj "Err" v
  fails v := match v with
    | .inj x _ => x == "Err"
    | v => v == .base "None"
  fails_none := by decide
  fails_err _ := by simp
  tried _ v := v

/-- `fn f() -> Result<T, impl Iterator> { x?; try { y? }; loop { y?; break }; z }` -/
def tryFnIn : Node := .mk (.iFn "f" (some (.mk (.path false (.ofIdents ["Result"]) (some false))
  [.mk .argType [.mk (.other "T") []], .mk .argType [implIter]]))) [] [.mk .block []
  [semiS (.mk .eTry [] [var "x"]), semiS (.mk .eTryBlock [] [tailS (.mk .eTry [] [var "y"])]),
   semiS (.mk (.eLoop none) [] [.mk .block [] [semiS (.mk .eTry [] [var "y"]), semiS (.mk (.eBreak none) [] [])]]),
   tailS (var "z")]]

/-- `'a: { if c { break 'a 1; } match x { 0 => 2, _ => 3 } }` -/
def blockIn : Node := .mk (.eBlock (some "a")) []
  [semiS (.mk .eIf [] [var "c", .mk .block [] [semiS (.mk (.eBreak (some "a")) [] [lit "1"])]]),
   tailS (.mk .eMatch [] [var "x", arm "0" (lit "2"), arm "_" (lit "3")])]

/-- `marker!(e)` -/
def markerOf (e : Node) : Node := .mk (.eMacro (.ofIdents ["marker"]) "..") [] [e]

/-- ```
fn f() -> impl Iterator {
    if c { return marker!(1); }
    match x {
        0 => { y; marker!(2) }
        #[nested] 1 => if y { 3 } else { 4 },
        2 => #[nested] loop { if y { break 5; } break marker!(6); },
        3 => panic!(),
        _ => 7,
    }
}
``` -/
def markedIn : Node := .mk (.iFn "f" (some implIter)) [] [.mk .block [] [
  semiS (.mk .eIf [] [var "c", .mk .block [] [semiS (.mk .eReturn [] [markerOf (lit "1")])]]),
  tailS (.mk .eMatch [] [var "x",
    arm "0" (exprBlock [semiS (var "y"), tailS (markerOf (lit "2"))]),
    .mk (.arm "1") [helper "nested"] [.mk .eIf [] [var "y", .mk .block [] [tailS (lit "3")],
      .mk (.eBlock none) [] [tailS (lit "4")]]],
    arm "2" (.mk (.eLoop none) [helper "nested"] [.mk .block [] [
      semiS (.mk .eIf [] [var "y", .mk .block [] [semiS (.mk (.eBreak none) [] [lit "5"])]]),
      semiS (.mk (.eBreak none) [] [markerOf (lit "6")])]]),
    arm "3" (.mk (.eMacro (.ofIdents ["panic"]) "") [] []),
    arm "_" (lit "7")])]]

end AutoEnums.Ex
