import Verif.Visitor

/-!
# Concrete inputs used to show that the hypotheses of the theorems are satisfiable
-/

namespace AutoEnums.Ex

def lit (s : String) : Node := .mk (.eLit s) [] []
def var (s : String) : Node := pathE (.ofIdents [s])
def arm (p : String) (b : Node) : Node := .mk (.arm p) [] [b]
def marker (e : Node) : Node := .mk (.eMacro (.ofIdents ["marker"]) "..") [] [e]
def call (f : String) (args : List Node) : Node := .mk .eCall [] (var f :: args)
def helper (s : String) : Attr := ⟨.ofIdents [s], .path⟩
def implIter : Ty := .mk (.implTrait [some (.ofIdents ["Iterator"])]) []

/-- The output is code satisfying `p`. -/
def check (o : Output) (p : Node → Bool) : Bool :=
  match o with
  | .code n => p n
  | _ => false

theorem of_check {o : Output} {p : Node → Bool} (h : check o p = true) :
    ∃ out, o = .code out ∧ p out = true := by
  cases o with
  | code n => exact ⟨n, rfl, h⟩
  | errors => cases h
  | panicked => cases h

/-- The hash used in examples. -/
def env : Env := { hash := fun _ => 7 }
def taEnv : Env := { hash := fun _ => 7, typeAnalysis := true }

/-- `#[auto_enum(Iterator)]`. -/
def iterator : List Tok := [.ident "Iterator"]

/-- ```
fn f() -> impl Iterator {
    if c { return 1; }
    match x { 0 => 2, 1 => panic!(), _ => { y; 3 } }
}
``` -/
def fnBody : List Node :=
  [semiS (.mk .eIf [] [var "c", .mk .block [] [semiS (.mk .eReturn [] [lit "1"])]]),
   tailS (.mk .eMatch [] [var "x", arm "0" (lit "2"),
     arm "1" (.mk (.eMacro (.ofIdents ["panic"]) "") [] []),
     arm "_" (exprBlock [semiS (var "y"), tailS (lit "3")])])]

def fnIn : Node := .mk (.iFn "f" (some implIter)) [] [.mk .block [] fnBody]

def v (h i : Nat) (e : Node) : Node :=
  exprCall [] (Path.ofIdents [enumIdent h, variantIdent i]) e

def fnOut : Node := .mk (.iFn "f" (some implIter)) [] [.mk .block []
  [.mk (.sItem (.genEnum "__Enum5" ["__Variant0", "__Variant1", "__Variant2"]
      [("__Variant0", "__Variant0"), ("__Variant1", "__Variant1"), ("__Variant2", "__Variant2")]
      [.ofIdents ["Iterator"]])) [] [],
   semiS (.mk .eIf [] [var "c", .mk .block [] [semiS (.mk .eReturn [] [v 5 2 (lit "1")])]]),
   tailS (.mk .eMatch [] [var "x", arm "0" (v 5 0 (lit "2")),
     arm "1" (.mk (.eMacro (.ofIdents ["panic"]) "") [] []),
     arm "_" (v 5 1 (exprBlock [semiS (var "y"), tailS (lit "3")]))])]]

theorem fn_run : autoEnum env 20 5 iterator (.stmt fnIn) = .code fnOut := by decide +kernel

/-- ```
let x = match a {
    0 => 1,
    _ => { #[auto_enum(Iterator)] let y = if c { 2 } else { 3 }; marker!(y) }
};
``` -/
def letIn : Node := .mk (.sLocal (.plain "x")) [] [.mk .eMatch [] [var "a",
  arm "0" (lit "1"),
  arm "_" (exprBlock [.mk (.sLocal (.plain "y")) [⟨.ofIdents [NAME], .list iterator⟩]
      [.mk .eIf [] [var "c", .mk .block [] [tailS (lit "2")], exprBlock [tailS (lit "3")]]],
    tailS (marker (var "y"))])]]

def letOut : Node := .mk (.sLocal (.plain "x")) [] [exprBlock [
  .mk (.sItem (.genEnum "__Enum5" ["__Variant0", "__Variant1"]
      [("__Variant0", "__Variant0"), ("__Variant1", "__Variant1")]
      [.ofIdents ["Iterator"]])) [] [],
  tailS (.mk .eMatch [] [var "a",
    arm "0" (v 5 0 (lit "1")),
    arm "_" (exprBlock [.mk (.sLocal (.plain "y")) [] [exprBlock [
        .mk (.sItem (.genEnum "__Enum7" ["__Variant0", "__Variant1"]
          [("__Variant0", "__Variant0"), ("__Variant1", "__Variant1")]
          [.ofIdents ["Iterator"]])) [] [],
        tailS (.mk .eIf [] [var "c", .mk .block [] [tailS (v 7 0 (exprBlock [tailS (lit "2")]))],
          exprBlock [tailS (v 7 1 (exprBlock [tailS (lit "3")]))]])]],
      tailS (v 5 1 (var "y"))])])]]

theorem let_run : autoEnum env 20 5 iterator (.stmt letIn) = .code letOut := by decide +kernel

end AutoEnums.Ex
