import Verif.Examples

/-!
# The crate's own tests, run through the model

Written by `tools/suite.py`, which parses the test files of the crate (`tools/rust2lean.py`).  These are tests of
the model, not proofs about it: every input below is the argument of an `#[auto_enum]` attribute in a test
of the crate, and the model has to give the outcome which that test expects.

* For the tests that compile (`passes`): the expansion succeeds, it leaves no `#[auto_enum]`, `#[nested]`,
  `#[never]` or marker macro behind (the compiler would reject them), and it contains one enum with two or more
  variants for every attribute that names traits.
* For the tests that fail to compile (`fails`): exactly the errors of the `.stderr` file, in that order.
-/

namespace AutoEnums.Suite

set_option maxRecDepth 20000

mutual
/-- Everything in the tree satisfies `p`; the tokens of macros are looked into. -/
def every (p : Kind → List Attr → Bool) : Node → Bool
  | .mk k as ks => p k as && everyL p ks
def everyL (p : Kind → List Attr → Bool) : List Node → Bool
  | [] => true
  | n :: ns => every p n && everyL p ns
end

mutual
/-- The number of variants and the traits of each generated enum. -/
def enums : Node → List (Nat × List Path)
  | .mk (.sItem (.genEnum _ _ vs ds)) _ _ => [(vs.length, ds)]
  | .mk _ _ ks => enumsL ks
def enumsL : List Node → List (Nat × List Path)
  | [] => []
  | n :: ns => enums n ++ enumsL ns
end

def bad (markers : List String) (k : Kind) (as : List Attr) : Bool :=
  (as.any fun a => ["auto_enum", "nested", "never", "rec"].any a.path.isIdent) ||
    match k with
    | .eMacro p _ | .sMacro p _ => markers.any p.isIdent
    | _ => false

/-- Accepted, nothing left behind, and `n` enums of two or more variants. -/
def passes (ta : Bool) (markers : List String) (n : Nat) (args : List Tok) (i : Input) : Bool :=
  match autoEnum { hash := fun _ => 7, typeAnalysis := ta } 60 5 args i with
  | .code out =>
    every (fun k as => !bad markers k as) out && (enums out).length == n && (enums out).all fun e => decide (2 ≤ e.1)
  | _ => false

/-- The number of variants of each enum. -/
def sizes (args : List Tok) (i : Input) : List Nat :=
  match autoEnum { hash := fun _ => 7 } 60 5 args i with
  | .code out => (enums out).map (·.1)
  | _ => []

/-- The traits of each enum, with type analysis. -/
def traits (args : List Tok) (i : Input) : List (List Path) :=
  match autoEnum { hash := fun _ => 7, typeAnalysis := true } 60 5 args i with
  | .code out => (enums out).map (·.2)
  | _ => []

/-- Rejected with exactly these errors. -/
def fails (args : List Tok) (i : Input) (es : List Err) : Bool :=
  match autoEnum { hash := fun _ => 7 } 60 5 args i with
  | .errors es' => decide (es' = es)
  | _ => false

/-! ## `tests/auto_enum.rs` -/

/-- `tests/auto_enum.rs:26` -/
def auto_enum_match_ : Node :=
  .mk (.iFn "match_" (some (.mk (.implTrait [some ⟨false, [⟨"Iterator", (some "Item = i32")⟩]⟩]) [.mk (.path false (.ofIdents ["i32"]) none) []]))) [] [.mk .block [] [.mk (.sExpr false) [] [.mk .eMatch [] [.mk (.ePath false (.ofIdents ["x"])) [] [], .mk (.arm "0") [] [.mk .eRange [] [.mk (.eLit "1") [] [], .mk (.eLit "8") [] []]], .mk (.arm "n") [] [.mk (.eBinary ">") [] [.mk (.ePath false (.ofIdents ["n"])) [] [], .mk (.eLit "3") [] []], .mk .eRange [] [.mk (.eLit "2") [] [], .mk (.eLit "10") [] []]], .mk (.arm "_") [] [.mk (.eMethodCall "map") [] [.mk .eParen [] [.mk .eRange [] [.mk (.eLit "0") [] [], .mk (.eLit "2") [] []]], .mk (.eClosure "x") [] [.mk (.eBinary "+") [] [.mk (.ePath false (.ofIdents ["x"])) [] [], .mk (.eLit "1") [] []]]]]]]]]

example : passes false ["foo", "marker_a", "bar", "marker"] 1 [.ident "Iterator"] (.stmt auto_enum_match_) = true := by decide +kernel

/-- `tests/auto_enum.rs:41` -/
def auto_enum_block : Node :=
  .mk (.iFn "block" (some (.mk (.implTrait [some ⟨false, [⟨"Iterator", (some "Item = i32")⟩]⟩]) [.mk (.path false (.ofIdents ["i32"]) none) []]))) [] [.mk .block [] [.mk (.sExpr false) [] [.mk (.eBlock none) [] [.mk (.sExpr false) [] [.mk (.eBlock none) [] [.mk (.sExpr false) [] [.mk .eParen [] [.mk (.eBlock none) [] [.mk (.sExpr false) [] [.mk .eUnsafe [] [.mk (.sExpr false) [] [.mk (.eBlock none) [] [.mk (.sExpr false) [] [.mk .eParen [] [.mk (.eBlock none) [] [.mk (.sExpr false) [] [.mk .eUnsafe [] [.mk (.sExpr false) [] [.mk .eUnsafe [] [.mk (.sExpr false) [] [.mk (.eBlock none) [] [.mk (.sExpr false) [] [.mk .eMatch [] [.mk (.ePath false (.ofIdents ["x"])) [] [], .mk (.arm "0") [] [.mk .eRange [] [.mk (.eLit "1") [] [], .mk (.eLit "8") [] []]], .mk (.arm "n") [] [.mk (.eBinary ">") [] [.mk (.ePath false (.ofIdents ["n"])) [] [], .mk (.eLit "3") [] []], .mk .eRange [] [.mk (.eLit "2") [] [], .mk (.eLit "10") [] []]], .mk (.arm "_") [] [.mk (.eMethodCall "map") [] [.mk .eParen [] [.mk .eRange [] [.mk (.eLit "0") [] [], .mk (.eLit "2") [] []]], .mk (.eClosure "x") [] [.mk (.eBinary "+") [] [.mk (.ePath false (.ofIdents ["x"])) [] [], .mk (.eLit "1") [] []]]]]]]]]]]]]]]]]]]]]]]]]]]]]

example : passes false ["foo", "marker_a", "bar", "marker"] 1 [.ident "Iterator"] (.stmt auto_enum_block) = true := by decide +kernel

/-- `tests/auto_enum.rs:55` -/
def auto_enum_if_ : Node :=
  .mk (.iFn "if_" (some (.mk (.implTrait [some ⟨false, [⟨"Iterator", (some "Item = i32")⟩]⟩]) [.mk (.path false (.ofIdents ["i32"]) none) []]))) [] [.mk .block [] [.mk (.sExpr false) [] [.mk .eIf [] [.mk (.eBinary "==") [] [.mk (.ePath false (.ofIdents ["x"])) [] [], .mk (.eLit "0") [] []], .mk .block [] [.mk (.sExpr false) [] [.mk .eRange [] [.mk (.eLit "1") [] [], .mk (.eLit "8") [] []]]], .mk .eIf [] [.mk (.eBinary ">") [] [.mk (.ePath false (.ofIdents ["x"])) [] [], .mk (.eLit "3") [] []], .mk .block [] [.mk (.sExpr false) [] [.mk .eRange [] [.mk (.eLit "2") [] [], .mk (.eLit "10") [] []]]], .mk (.eBlock none) [] [.mk (.sExpr false) [] [.mk (.eMethodCall "map") [] [.mk .eParen [] [.mk .eRange [] [.mk (.eLit "0") [] [], .mk (.eLit "2") [] []]], .mk (.eClosure "x") [] [.mk (.eBinary "+") [] [.mk (.ePath false (.ofIdents ["x"])) [] [], .mk (.eLit "1") [] []]]]]]]]]]]

example : passes false ["foo", "marker_a", "bar", "marker"] 1 [.ident "Iterator"] (.stmt auto_enum_if_) = true := by decide +kernel

/-- `tests/auto_enum.rs:69` -/
def auto_enum_method_call : Node :=
  .mk (.iFn "method_call" (some (.mk (.implTrait [some ⟨false, [⟨"Iterator", (some "Item = i32")⟩]⟩]) [.mk (.path false (.ofIdents ["i32"]) none) []]))) [] [.mk .block [] [.mk (.sExpr false) [] [.mk (.eMethodCall "map") [] [.mk (.eMethodCall "map") [] [.mk .eIf [] [.mk (.eBinary "==") [] [.mk (.ePath false (.ofIdents ["x"])) [] [], .mk (.eLit "0") [] []], .mk .block [] [.mk (.sExpr false) [] [.mk .eRange [] [.mk (.eLit "1") [] [], .mk (.eLit "8") [] []]]], .mk .eIf [] [.mk (.eBinary ">") [] [.mk (.ePath false (.ofIdents ["x"])) [] [], .mk (.eLit "3") [] []], .mk .block [] [.mk (.sExpr false) [] [.mk .eRange [] [.mk (.eLit "2") [] [], .mk (.eLit "10") [] []]]], .mk (.eBlock none) [] [.mk (.sExpr false) [] [.mk (.eMethodCall "map") [] [.mk .eParen [] [.mk .eRange [] [.mk (.eLit "0") [] [], .mk (.eLit "2") [] []]], .mk (.eClosure "x") [] [.mk (.eBinary "+") [] [.mk (.ePath false (.ofIdents ["x"])) [] [], .mk (.eLit "1") [] []]]]]]]], .mk (.eClosure "x") [] [.mk (.eBinary "+") [] [.mk (.ePath false (.ofIdents ["x"])) [] [], .mk (.eLit "1") [] []]]], .mk (.eClosure "x") [] [.mk (.eBinary "-") [] [.mk (.ePath false (.ofIdents ["x"])) [] [], .mk (.eLit "1") [] []]]]]]]

example : passes false ["foo", "marker_a", "bar", "marker"] 1 [.ident "Iterator"] (.stmt auto_enum_method_call) = true := by decide +kernel

/-- `tests/auto_enum.rs:85` -/
def auto_enum_no_return : Node :=
  .mk (.iFn "no_return" (some (.mk (.implTrait [some ⟨false, [⟨"Iterator", (some "Item = i32")⟩]⟩]) [.mk (.path false (.ofIdents ["i32"]) none) []]))) [] [.mk .block [] [.mk (.sExpr false) [] [.mk .eMatch [] [.mk (.ePath false (.ofIdents ["x"])) [] [], .mk (.arm "0") [] [.mk .eRange [] [.mk (.eLit "1") [] [], .mk (.eLit "8") [] []]], .mk (.arm "3") [] [.mk (.eMacro (.ofIdents ["panic"]) "") [] []], .mk (.arm "_") [] [.mk (.eMethodCall "map") [] [.mk .eParen [] [.mk .eRange [] [.mk (.eLit "0") [] [], .mk (.eLit "2") [] []]], .mk (.eClosure "x") [] [.mk (.eBinary "+") [] [.mk (.ePath false (.ofIdents ["x"])) [] [], .mk (.eLit "1") [] []]]]]]]]]

example : passes false ["foo", "marker_a", "bar", "marker"] 1 [.ident "Iterator"] (.stmt auto_enum_no_return) = true := by decide +kernel

/-- `tests/auto_enum.rs:97` -/
def auto_enum_no_return2 : Node :=
  .mk (.iFn "no_return2" (some (.mk (.implTrait [some ⟨false, [⟨"Iterator", (some "Item = i32")⟩]⟩]) [.mk (.path false (.ofIdents ["i32"]) none) []]))) [] [.mk .block [] [.mk (.sExpr false) [] [.mk .eMatch [] [.mk (.ePath false (.ofIdents ["x"])) [] [], .mk (.arm "0") [] [.mk .eRange [] [.mk (.eLit "1") [] [], .mk (.eLit "8") [] []]], .mk (.arm "3") [] [.mk .eMatch [] [.mk (.ePath false (.ofIdents ["x"])) [] [], .mk (.arm "0") [] [.mk (.eMacro (.ofIdents ["panic"]) "") [] []], .mk (.arm "1 ..= 3") [] [.mk (.eMacro (.ofIdents ["panic"]) "") [] []], .mk (.arm "_") [] [.mk (.eMacro (.ofIdents ["unreachable"]) "") [] []]]], .mk (.arm "_") [] [.mk (.eMethodCall "map") [] [.mk .eParen [] [.mk .eRange [] [.mk (.eLit "0") [] [], .mk (.eLit "2") [] []]], .mk (.eClosure "x") [] [.mk (.eBinary "+") [] [.mk (.ePath false (.ofIdents ["x"])) [] [], .mk (.eLit "1") [] []]]]]]]]]

example : passes false ["foo", "marker_a", "bar", "marker"] 1 [.ident "Iterator"] (.stmt auto_enum_no_return2) = true := by decide +kernel

/-- `tests/auto_enum.rs:113` -/
def auto_enum_no_return3 : Node :=
  .mk (.iFn "no_return3" (some (.mk (.implTrait [some ⟨false, [⟨"Iterator", (some "Item = i32")⟩]⟩]) [.mk (.path false (.ofIdents ["i32"]) none) []]))) [] [.mk .block [] [.mk (.sExpr false) [] [.mk .eMatch [] [.mk (.ePath false (.ofIdents ["x"])) [] [], .mk (.arm "0") [] [.mk .eRange [] [.mk (.eLit "1") [] [], .mk (.eLit "8") [] []]], .mk (.arm "3") [] [.mk .eMatch [] [.mk (.ePath false (.ofIdents ["x"])) [] [], .mk (.arm "0") [] [.mk (.eMacro (.ofIdents ["panic"]) "") [] []], .mk (.arm "1 ..= 3") [] [.mk (.eMethodCall "map") [] [.mk .eParen [] [.mk .eRange [] [.mk (.eLit "1") [] [], .mk (.eLit "4") [] []]], .mk (.eClosure "x") [] [.mk (.eBinary "+") [] [.mk (.ePath false (.ofIdents ["x"])) [] [], .mk (.eLit "1") [] []]]]], .mk (.arm "_") [] [.mk (.eMacro (.ofIdents ["unreachable"]) "") [] []]]], .mk (.arm "_") [] [.mk (.eMethodCall "map") [] [.mk .eParen [] [.mk .eRange [] [.mk (.eLit "0") [] [], .mk (.eLit "2") [] []]], .mk (.eClosure "x") [] [.mk (.eBinary "+") [] [.mk (.ePath false (.ofIdents ["x"])) [] [], .mk (.eLit "1") [] []]]]]]]]]

example : passes false ["foo", "marker_a", "bar", "marker"] 1 [.ident "Iterator"] (.stmt auto_enum_no_return3) = true := by decide +kernel

/-- `tests/auto_enum.rs:128` -/
def auto_enum_no_return4 : Node :=
  .mk (.iFn "no_return4" (some (.mk (.implTrait [some ⟨false, [⟨"Iterator", (some "Item = i32")⟩]⟩]) [.mk (.path false (.ofIdents ["i32"]) none) []]))) [] [.mk .block [] [.mk (.sExpr false) [] [.mk .eIf [] [.mk (.eBinary "==") [] [.mk (.ePath false (.ofIdents ["i"])) [] [], .mk (.eLit "0") [] []], .mk .block [] [.mk (.sExpr false) [] [.mk .eRange [] [.mk (.eLit "1") [] [], .mk (.eLit "8") [] []]]], .mk .eIf [] [.mk (.eBinary ">") [] [.mk (.ePath false (.ofIdents ["i"])) [] [], .mk (.eLit "6") [] []], .mk .block [] [.mk (.sMacro (.ofIdents ["panic"]) "") [] []], .mk .eIf [] [.mk (.eBinary ">") [] [.mk (.ePath false (.ofIdents ["i"])) [] [], .mk (.eLit "5") [] []], .mk .block [] [.mk (.sMacro (.ofIdents ["std", "panic"]) "\"5\"") [] []], .mk .eIf [] [.mk (.eBinary ">") [] [.mk (.ePath false (.ofIdents ["i"])) [] [], .mk (.eLit "4") [] []], .mk .block [] [.mk (.sMacro (.ofIdents ["core", "panic"]) "\"4\"") [] []], .mk .eIf [] [.mk (.eBinary ">") [] [.mk (.ePath false (.ofIdents ["i"])) [] [], .mk (.eLit "3") [] []], .mk .block [] [.mk (.sMacro (.ofIdents ["unreachable"]) "\"3\"") [] []], .mk .eIf [] [.mk (.eBinary ">") [] [.mk (.ePath false (.ofIdents ["i"])) [] [], .mk (.eLit "2") [] []], .mk .block [] [.mk (.sMacro (.ofIdents ["std", "unreachable"]) "\"2\"") [] []], .mk .eIf [] [.mk (.eBinary ">") [] [.mk (.ePath false (.ofIdents ["i"])) [] [], .mk (.eLit "1") [] []], .mk .block [] [.mk (.sMacro (.ofIdents ["core", "unreachable"]) "") [] []], .mk (.eBlock none) [] [.mk (.sExpr false) [] [.mk (.eMethodCall "map") [] [.mk .eParen [] [.mk .eRange [] [.mk (.eLit "0") [] [], .mk (.eLit "2") [] []]], .mk (.eClosure "x") [] [.mk (.eBinary "+") [] [.mk (.ePath false (.ofIdents ["x"])) [] [], .mk (.eLit "1") [] []]]]]]]]]]]]]]]]

example : passes false ["foo", "marker_a", "bar", "marker"] 1 [.ident "Iterator"] (.stmt auto_enum_no_return4) = true := by decide +kernel

/-- `tests/auto_enum.rs:152` -/
def auto_enum_no_return5 : Node :=
  .mk (.iFn "no_return5" (some (.mk (.implTrait [some (.ofIdents ["core", "fmt", "Debug"])]) []))) [] [.mk .block [] [.mk (.sExpr false) [] [.mk .eMatch [] [.mk (.ePath false (.ofIdents ["x"])) [] [], .mk (.arm "0") [] [.mk .eRange [] [.mk (.eLit "1") [] [], .mk (.eLit "8") [] []]], .mk (.arm "3") [] [.mk (.eBlock none) [] []], .mk (.arm "_") [] [.mk .eRange [] [.mk (.eLit "0") [] [], .mk (.eLit "2") [] []]]]]]]

example : passes false ["foo", "marker_a", "bar", "marker"] 1 [.ident "fmt", .colon2, .ident "Debug"] (.stmt auto_enum_no_return5) = true := by decide +kernel

/-- `tests/auto_enum.rs:161` -/
def auto_enum_return1 : Node :=
  .mk (.iFn "return1" (some (.mk (.implTrait [some ⟨false, [⟨"Iterator", (some "Item = i32")⟩]⟩]) [.mk (.path false (.ofIdents ["i32"]) none) []]))) [] [.mk .block [] [.mk (.sExpr false) [] [.mk .eIf [] [.mk (.eBinary ">") [] [.mk (.ePath false (.ofIdents ["x"])) [] [], .mk (.eLit "10") [] []], .mk .block [] [.mk (.sExpr true) [] [.mk .eReturn [] [.mk (.eMethodCall "map") [] [.mk .eParen [] [.mk .eRange [] [.mk (.eLit "0") [] [], .mk (.eCast "i32") [] [.mk (.ePath false (.ofIdents ["x"])) [] []]]], .mk (.eClosure "x") [] [.mk (.eBinary "-") [] [.mk (.ePath false (.ofIdents ["x"])) [] [], .mk (.eLit "1") [] []]]]]]]]], .mk (.sExpr false) [] [.mk .eIf [] [.mk (.eBinary "==") [] [.mk (.ePath false (.ofIdents ["x"])) [] [], .mk (.eLit "0") [] []], .mk .block [] [.mk (.sExpr false) [] [.mk .eRange [] [.mk (.eLit "1") [] [], .mk (.eLit "8") [] []]]], .mk .eIf [] [.mk (.eBinary ">") [] [.mk (.ePath false (.ofIdents ["x"])) [] [], .mk (.eLit "3") [] []], .mk .block [] [.mk (.sExpr false) [] [.mk .eRange [] [.mk (.eLit "2") [] [], .mk (.eLit "10") [] []]]], .mk (.eBlock none) [] [.mk (.sExpr false) [] [.mk (.eMethodCall "map") [] [.mk .eParen [] [.mk .eRange [] [.mk (.eLit "0") [] [], .mk (.eLit "2") [] []]], .mk (.eClosure "x") [] [.mk (.eBinary "+") [] [.mk (.ePath false (.ofIdents ["x"])) [] [], .mk (.eLit "1") [] []]]]]]]]]]]

example : passes false ["foo", "marker_a", "bar", "marker"] 1 [.ident "Iterator"] (.stmt auto_enum_return1) = true := by decide +kernel

/-- `tests/auto_enum.rs:178` -/
def auto_enum_break_in_loop : Node :=
  .mk (.iFn "break_in_loop" (some (.mk (.implTrait [some ⟨false, [⟨"Iterator", (some "Item = i32")⟩]⟩]) [.mk (.path false (.ofIdents ["i32"]) none) []]))) [] [.mk .block [] [.mk (.sExpr false) [] [.mk (.eLoop none) [] [.mk .block [] [.mk (.sExpr false) [] [.mk .eIf [] [.mk (.eBinary "<") [] [.mk (.ePath false (.ofIdents ["x"])) [] [], .mk (.eLit "0") [] []], .mk .block [] [.mk (.sExpr true) [] [.mk (.eBreak none) [] [.mk .eRange [] [.mk (.ePath false (.ofIdents ["x"])) [] [], .mk (.eLit "0") [] []]]]], .mk .eIf [] [.mk (.eBinary "==") [] [.mk (.eBinary "%") [] [.mk (.ePath false (.ofIdents ["x"])) [] [], .mk (.eLit "5") [] []], .mk (.eLit "0") [] []], .mk .block [] [.mk (.sExpr true) [] [.mk (.eBreak none) [] [.mk .eRange [] [.mk (.eLit "0") [] [], .mk (.ePath false (.ofIdents ["x"])) [] []]]]]]]], .mk (.sExpr true) [] [.mk (.eBinary "-=") [] [.mk (.ePath false (.ofIdents ["x"])) [] [], .mk (.eLit "1") [] []]]]]]]]

example : passes false ["foo", "marker_a", "bar", "marker"] 1 [.ident "Iterator"] (.stmt auto_enum_break_in_loop) = true := by decide +kernel

/-- `tests/auto_enum.rs:192` -/
def auto_enum_break2 : Node :=
  .mk (.iFn "break2" (some (.mk (.implTrait [some ⟨false, [⟨"Iterator", (some "Item = i32")⟩]⟩]) [.mk (.path false (.ofIdents ["i32"]) none) []]))) [] [.mk .block [] [.mk (.sExpr false) [] [.mk (.eLoop (some "a")) [] [.mk .block [] [.mk (.sExpr false) [] [.mk .eIf [] [.mk (.eBinary "<") [] [.mk (.ePath false (.ofIdents ["x"])) [] [], .mk (.eLit "0") [] []], .mk .block [] [.mk (.sExpr true) [] [.mk (.eBreak (some "a")) [] [.mk .eRange [] [.mk (.ePath false (.ofIdents ["x"])) [] [], .mk (.eLit "0") [] []]]]], .mk .eIf [] [.mk (.eBinary "==") [] [.mk (.eBinary "%") [] [.mk (.ePath false (.ofIdents ["x"])) [] [], .mk (.eLit "5") [] []], .mk (.eLit "0") [] []], .mk .block [] [.mk (.sExpr true) [] [.mk (.eBreak none) [] [.mk .eRange [] [.mk (.eLit "0") [] [], .mk (.ePath false (.ofIdents ["x"])) [] []]]]]]]], .mk (.sExpr true) [] [.mk (.eBinary "-=") [] [.mk (.ePath false (.ofIdents ["x"])) [] [], .mk (.eLit "1") [] []]]]]]]]

example : passes false ["foo", "marker_a", "bar", "marker"] 1 [.ident "Iterator"] (.stmt auto_enum_break2) = true := by decide +kernel

/-- `tests/auto_enum.rs:206` -/
def auto_enum_break3 : Node :=
  .mk (.iFn "break3" (some (.mk (.implTrait [some ⟨false, [⟨"Iterator", (some "Item = i32")⟩]⟩]) [.mk (.path false (.ofIdents ["i32"]) none) []]))) [] [.mk .block [] [.mk (.sExpr false) [] [.mk (.eLoop (some "a")) [] [.mk .block [] [.mk (.sExpr false) [] [.mk .eIf [] [.mk (.eBinary "<") [] [.mk (.ePath false (.ofIdents ["x"])) [] [], .mk (.eLit "0") [] []], .mk .block [] [.mk (.sExpr false) [] [.mk (.eLoop none) [] [.mk .block [] [.mk (.sExpr true) [] [.mk (.eBreak (some "a")) [] [.mk .eRange [] [.mk (.ePath false (.ofIdents ["x"])) [] [], .mk (.eLit "0") [] []]]]]]]], .mk .eIf [] [.mk (.eBinary "==") [] [.mk (.eBinary "%") [] [.mk (.ePath false (.ofIdents ["x"])) [] [], .mk (.eLit "5") [] []], .mk (.eLit "0") [] []], .mk .block [] [.mk (.sExpr true) [] [.mk .eReturn [] [.mk (.eLoop none) [] [.mk .block [] [.mk (.sExpr true) [] [.mk (.eBreak none) [] [.mk .eRange [] [.mk (.eLit "0") [] [], .mk (.ePath false (.ofIdents ["x"])) [] []]]]]]]]]]]], .mk (.sExpr true) [] [.mk (.eBinary "-=") [] [.mk (.ePath false (.ofIdents ["x"])) [] [], .mk (.eLit "1") [] []]]]]]]]

example : passes false ["foo", "marker_a", "bar", "marker"] 1 [.ident "Iterator"] (.stmt auto_enum_break3) = true := by decide +kernel

/-- `tests/auto_enum.rs:224` -/
def auto_enum_return_in_loop : Node :=
  .mk (.iFn "return_in_loop" (some (.mk (.implTrait [some ⟨false, [⟨"Iterator", (some "Item = i32")⟩]⟩]) [.mk (.path false (.ofIdents ["i32"]) none) []]))) [] [.mk .block [] [.mk (.sExpr false) [] [.mk (.eLoop none) [] [.mk .block [] [.mk (.sExpr false) [] [.mk .eIf [] [.mk (.eBinary "<") [] [.mk (.ePath false (.ofIdents ["x"])) [] [], .mk (.eLit "0") [] []], .mk .block [] [.mk (.sExpr true) [] [.mk .eReturn [] [.mk .eRange [] [.mk (.ePath false (.ofIdents ["x"])) [] [], .mk (.eLit "0") [] []]]]], .mk .eIf [] [.mk (.eBinary "==") [] [.mk (.eBinary "%") [] [.mk (.ePath false (.ofIdents ["x"])) [] [], .mk (.eLit "5") [] []], .mk (.eLit "0") [] []], .mk .block [] [.mk (.sExpr true) [] [.mk .eReturn [] [.mk .eRange [] [.mk (.eLit "0") [] [], .mk (.ePath false (.ofIdents ["x"])) [] []]]]]]]], .mk (.sExpr true) [] [.mk (.eBinary "-=") [] [.mk (.ePath false (.ofIdents ["x"])) [] [], .mk (.eLit "1") [] []]]]]]]]

example : passes false ["foo", "marker_a", "bar", "marker"] 1 [.ident "Iterator"] (.stmt auto_enum_return_in_loop) = true := by decide +kernel

/-- `tests/auto_enum.rs:238` -/
def auto_enum_return2 : Node :=
  .mk (.iFn "return2" (some (.mk (.implTrait [some ⟨false, [⟨"Iterator", (some "Item = i32")⟩]⟩]) [.mk (.path false (.ofIdents ["i32"]) none) []]))) [] [.mk .block [] [.mk (.sLocal (.plain "iter")) [⟨(.ofIdents ["auto_enum"]), .list [.ident "Iterator"]⟩] [.mk .eMatch [] [.mk (.ePath false (.ofIdents ["x"])) [] [], .mk (.arm "0") [] [.mk .eRange [] [.mk (.eLit "2") [] [], .mk (.eLit "8") [] []]], .mk (.arm "_") [] [.mk (.eBinary "<") [] [.mk (.ePath false (.ofIdents ["y"])) [] [], .mk (.eLit "0") [] []], .mk .eReturn [] [.mk .eRange [] [.mk (.ePath false (.ofIdents ["y"])) [] [], .mk (.eLit "0") [] []]]], .mk (.arm "_") [] [.mk .eRange [] [.mk (.eLit "2") [] [], .mk (.eLit "10") [] []]]]], .mk (.sExpr false) [] [.mk .eMatch [] [.mk (.ePath false (.ofIdents ["y"])) [] [], .mk (.arm "0") [] [.mk (.eMethodCall "flat_map") [] [.mk (.ePath false (.ofIdents ["iter"])) [] [], .mk (.eClosure "x") [] [.mk .eRange [] [.mk (.eLit "0") [] [], .mk (.ePath false (.ofIdents ["x"])) [] []]]]], .mk (.arm "_") [] [.mk (.eMethodCall "map") [] [.mk (.ePath false (.ofIdents ["iter"])) [] [], .mk (.eClosure "x") [] [.mk (.eBinary "+") [] [.mk (.ePath false (.ofIdents ["x"])) [] [], .mk (.eLit "1") [] []]]]]]]]]

example : passes false ["foo", "marker_a", "bar", "marker"] 2 [.ident "Iterator"] (.stmt auto_enum_return2) = true := by decide +kernel

/-- `tests/auto_enum.rs:254` -/
def auto_enum_return3 : Node :=
  .mk (.iFn "return3" (some (.mk (.path false ⟨false, [⟨"Option", (some "impl Iterator < Item = i32 >")⟩]⟩ (some false)) [.mk .argType [.mk (.implTrait [some ⟨false, [⟨"Iterator", (some "Item = i32")⟩]⟩]) [.mk (.path false (.ofIdents ["i32"]) none) []]]]))) [] [.mk .block [] [.mk (.sExpr false) [] [.mk .eIf [] [.mk (.eBinary "<") [] [.mk (.ePath false (.ofIdents ["x"])) [] [], .mk (.eLit "0") [] []], .mk .block [] [.mk (.sExpr true) [] [.mk .eReturn [] [.mk (.ePath false (.ofIdents ["None"])) [] []]]]]], .mk (.sLocal (.plain "iter")) [⟨(.ofIdents ["auto_enum"]), .list [.ident "Iterator"]⟩] [.mk .eMatch [] [.mk (.ePath false (.ofIdents ["x"])) [] [], .mk (.arm "0") [] [.mk .eRange [] [.mk (.eLit "2") [] [], .mk (.eLit "8") [] []]], .mk (.arm "1") [] [.mk .eTry [] [.mk (.ePath false (.ofIdents ["None"])) [] []]], .mk (.arm "2") [] [.mk .eTry [] [.mk (.ePath false (.ofIdents ["std", "option", "Option", "None"])) [] []]], .mk (.arm "3") [] [.mk .eTry [] [.mk (.ePath false (.ofIdents ["core", "option", "Option", "None"])) [] []]], .mk (.arm "4") [] [.mk .eTry [] [.mk (.ePath false ⟨false, [⟨"None", (some "_")⟩]⟩) [] []]], .mk (.arm "_") [] [.mk .eRange [] [.mk (.eLit "2") [] [], .mk (.eLit "10") [] []]]]], .mk (.sExpr false) [] [.mk .eCall [] [.mk (.ePath false (.ofIdents ["Some"])) [] [], .mk (.ePath false (.ofIdents ["iter"])) [] []]]]]

example : passes false ["foo", "marker_a", "bar", "marker"] 1 [] (.stmt auto_enum_return3) = true := by decide +kernel

/-- `tests/auto_enum.rs:274` -/
def auto_enum_return4 : Node :=
  .mk (.iFn "return4" (some (.mk (.path false ⟨false, [⟨"Result", (some "impl Iterator < Item = i32 > , ( )")⟩]⟩ (some false)) [.mk .argType [.mk (.implTrait [some ⟨false, [⟨"Iterator", (some "Item = i32")⟩]⟩]) [.mk (.path false (.ofIdents ["i32"]) none) []]], .mk .argType [.mk (.other "()") []]]))) [] [.mk .block [] [.mk (.sExpr false) [] [.mk .eIf [] [.mk (.eBinary "<") [] [.mk (.ePath false (.ofIdents ["x"])) [] [], .mk (.eLit "0") [] []], .mk .block [] [.mk (.sExpr true) [] [.mk .eReturn [] [.mk .eCall [] [.mk (.ePath false (.ofIdents ["Err"])) [] [], .mk .eTuple [] []]]]]]], .mk (.sLocal (.plain "iter")) [⟨(.ofIdents ["auto_enum"]), .list [.ident "Iterator"]⟩] [.mk .eMatch [] [.mk (.ePath false (.ofIdents ["x"])) [] [], .mk (.arm "0") [] [.mk .eRange [] [.mk (.eLit "2") [] [], .mk (.eLit "8") [] []]], .mk (.arm "1") [] [.mk .eTry [] [.mk .eCall [] [.mk (.ePath false (.ofIdents ["Err"])) [] [], .mk .eTuple [] []]]], .mk (.arm "2") [] [.mk .eTry [] [.mk .eCall [] [.mk (.ePath false (.ofIdents ["std", "result", "Result", "Err"])) [] [], .mk .eTuple [] []]]], .mk (.arm "3") [] [.mk .eTry [] [.mk .eCall [] [.mk (.ePath false (.ofIdents ["core", "result", "Result", "Err"])) [] [], .mk .eTuple [] []]]], .mk (.arm "4") [] [.mk .eTry [] [.mk .eCall [] [.mk (.ePath false ⟨false, [⟨"Err", (some "_ , ( )")⟩]⟩) [] [], .mk .eTuple [] []]]], .mk (.arm "_") [] [.mk .eRange [] [.mk (.eLit "2") [] [], .mk (.eLit "10") [] []]]]], .mk (.sExpr false) [] [.mk .eCall [] [.mk (.ePath false (.ofIdents ["Ok"])) [] [], .mk (.ePath false (.ofIdents ["iter"])) [] []]]]]

example : passes false ["foo", "marker_a", "bar", "marker"] 1 [] (.stmt auto_enum_return4) = true := by decide +kernel

/-- `tests/auto_enum.rs:294` -/
def auto_enum_try_operator1 : Node :=
  .mk (.iFn "try_operator1" (some (.mk (.path false ⟨false, [⟨"Result", (some "impl Iterator < Item = i32 > , impl core :: fmt :: Debug")⟩]⟩ (some false)) [.mk .argType [.mk (.implTrait [some ⟨false, [⟨"Iterator", (some "Item = i32")⟩]⟩]) [.mk (.path false (.ofIdents ["i32"]) none) []]], .mk .argType [.mk (.implTrait [some (.ofIdents ["core", "fmt", "Debug"])]) []]]))) [] [.mk .block [] [.mk (.sExpr false) [] [.mk .eIf [] [.mk (.eBinary "<") [] [.mk (.ePath false (.ofIdents ["x"])) [] [], .mk (.eLit "0") [] []], .mk .block [] [.mk (.sExpr true) [] [.mk .eTry [] [.mk .eCall [] [.mk (.ePath false (.ofIdents ["Err"])) [] [], .mk (.eLit "1_i32") [] []]]]]]], .mk (.sLocal (.plain "iter")) [] [.mk .eMatch [] [.mk (.ePath false (.ofIdents ["x"])) [] [], .mk (.arm "0") [] [.mk .eTry [] [.mk .eCall [] [.mk (.ePath false (.ofIdents ["Err"])) [] [], .mk .eTuple [] []]]], .mk (.arm "_") [] [.mk .eRange [] [.mk (.eLit "2") [] [], .mk (.eLit "10") [] []]]]], .mk (.sExpr false) [] [.mk .eCall [] [.mk (.ePath false (.ofIdents ["Ok"])) [] [], .mk (.ePath false (.ofIdents ["iter"])) [] []]]]]

example : passes false ["foo", "marker_a", "bar", "marker"] 1 [.ident "Debug", .comma, .ident "Display"] (.stmt auto_enum_try_operator1) = true := by decide +kernel

/-- `tests/auto_enum.rs:309` -/
def auto_enum_try_operator2 : Node :=
  .mk (.iFn "try_operator2" (some (.mk (.path false ⟨false, [⟨"std", none⟩, ⟨"result", none⟩, ⟨"Result", (some "impl Iterator < Item = i32 > , impl core :: fmt :: Debug")⟩]⟩ (some false)) [.mk .argType [.mk (.implTrait [some ⟨false, [⟨"Iterator", (some "Item = i32")⟩]⟩]) [.mk (.path false (.ofIdents ["i32"]) none) []]], .mk .argType [.mk (.implTrait [some (.ofIdents ["core", "fmt", "Debug"])]) []]]))) [] [.mk .block [] [.mk (.sExpr false) [] [.mk .eIf [] [.mk (.eBinary "<") [] [.mk (.ePath false (.ofIdents ["x"])) [] [], .mk (.eLit "0") [] []], .mk .block [] [.mk (.sExpr true) [] [.mk .eTry [] [.mk .eCall [] [.mk (.ePath false (.ofIdents ["Err"])) [] [], .mk (.eLit "1_i32") [] []]]]]]], .mk (.sExpr false) [] [.mk .eMatch [] [.mk (.ePath false (.ofIdents ["x"])) [] [], .mk (.arm "0") [] [.mk .eTry [] [.mk .eCall [] [.mk (.ePath false (.ofIdents ["Err"])) [] [], .mk .eTuple [] []]]], .mk (.arm "_") [] [.mk .eCall [] [.mk (.ePath false (.ofIdents ["Ok"])) [] [], .mk .eRange [] [.mk (.eLit "2") [] [], .mk (.eLit "10") [] []]]]]]]]

example : passes false ["foo", "marker_a", "bar", "marker"] 1 [.ident "Debug"] (.stmt auto_enum_try_operator2) = true := by decide +kernel

/-- `tests/auto_enum.rs:324` -/
def auto_enum_try_operator3 : Node :=
  .mk (.iFn "try_operator3" (some (.mk (.path false ⟨false, [⟨"core", none⟩, ⟨"result", none⟩, ⟨"Result", (some "impl Iterator < Item = i32 > , impl core :: fmt :: Debug")⟩]⟩ (some false)) [.mk .argType [.mk (.implTrait [some ⟨false, [⟨"Iterator", (some "Item = i32")⟩]⟩]) [.mk (.path false (.ofIdents ["i32"]) none) []]], .mk .argType [.mk (.implTrait [some (.ofIdents ["core", "fmt", "Debug"])]) []]]))) [] [.mk .block [] [.mk (.sExpr false) [] [.mk .eIf [] [.mk (.eBinary "<") [] [.mk (.ePath false (.ofIdents ["x"])) [] [], .mk (.eLit "0") [] []], .mk .block [] [.mk (.sExpr true) [] [.mk .eTry [] [.mk .eCall [] [.mk (.ePath false (.ofIdents ["Err"])) [] [], .mk (.eLit "1_i32") [] []]]]]]], .mk (.sExpr false) [] [.mk .eMatch [] [.mk (.ePath false (.ofIdents ["x"])) [] [], .mk (.arm "0") [] [.mk .eTry [] [.mk .eCall [] [.mk (.ePath false (.ofIdents ["Err"])) [] [], .mk .eTuple [] []]]], .mk (.arm "_") [] [.mk .eCall [] [.mk (.ePath false (.ofIdents ["Ok"])) [] [], .mk .eRange [] [.mk (.eLit "2") [] [], .mk (.eLit "10") [] []]]]]]]]

example : passes false ["foo", "marker_a", "bar", "marker"] 1 [.ident "Debug"] (.stmt auto_enum_try_operator3) = true := by decide +kernel

/-- `tests/auto_enum.rs:339` -/
def auto_enum_closure : Node :=
  .mk (.iFn "closure" none) [] [.mk .block [] [.mk (.sLocal (.plain "f")) [⟨(.ofIdents ["auto_enum"]), .list [.ident "Iterator"]⟩] [.mk (.eClosure "x") [] [.mk (.eBlock none) [] [.mk (.sExpr false) [] [.mk .eIf [] [.mk (.eBinary ">") [] [.mk (.ePath false (.ofIdents ["x"])) [] [], .mk (.eLit "10") [] []], .mk .block [] [.mk (.sExpr true) [] [.mk .eReturn [] [.mk (.eMethodCall "map") [] [.mk .eParen [] [.mk .eRange [] [.mk (.eLit "0") [] [], .mk (.eCast "i32") [] [.mk (.ePath false (.ofIdents ["x"])) [] []]]], .mk (.eClosure "x") [] [.mk (.eBinary "-") [] [.mk (.ePath false (.ofIdents ["x"])) [] [], .mk (.eLit "1") [] []]]]]]]]], .mk (.sExpr false) [] [.mk .eIf [] [.mk (.eBinary "==") [] [.mk (.ePath false (.ofIdents ["x"])) [] [], .mk (.eLit "0") [] []], .mk .block [] [.mk (.sExpr false) [] [.mk .eRange [] [.mk (.eLit "1") [] [], .mk (.eLit "8") [] []]]], .mk .eIf [] [.mk (.eBinary ">") [] [.mk (.ePath false (.ofIdents ["x"])) [] [], .mk (.eLit "3") [] []], .mk .block [] [.mk (.sExpr false) [] [.mk .eRange [] [.mk (.eLit "2") [] [], .mk (.eLit "10") [] []]]], .mk (.eBlock none) [] [.mk (.sExpr false) [] [.mk (.eMethodCall "map") [] [.mk .eParen [] [.mk .eRange [] [.mk (.eLit "0") [] [], .mk (.eLit "2") [] []]], .mk (.eClosure "x") [] [.mk (.eBinary "+") [] [.mk (.ePath false (.ofIdents ["x"])) [] [], .mk (.eLit "1") [] []]]]]]]]]]]], .mk (.sExpr false) [] [.mk (.eForLoop none "( i , x )") [] [.mk (.eMethodCall "enumerate") [] [.mk (.eMethodCall "iter") [] [.mk (.ePath false (.ofIdents ["ANS"])) [] []]], .mk .block [] [.mk (.sMacro (.ofIdents ["assert_eq"]) "f ( i ) . sum :: < i32 > ( ) , * x") [] []]]], .mk (.sLocal (.plain "f")) [] [.mk (.eBlock none) [] [.mk (.sExpr false) [] [.mk (.eClosure "x") [⟨(.ofIdents ["auto_enum"]), .list [.ident "Iterator"]⟩] [.mk (.eBlock none) [] [.mk (.sExpr false) [] [.mk .eIf [] [.mk (.eBinary ">") [] [.mk (.ePath false (.ofIdents ["x"])) [] [], .mk (.eLit "10") [] []], .mk .block [] [.mk (.sExpr true) [] [.mk .eReturn [] [.mk (.eMethodCall "map") [] [.mk .eParen [] [.mk .eRange [] [.mk (.eLit "0") [] [], .mk (.eCast "i32") [] [.mk (.ePath false (.ofIdents ["x"])) [] []]]], .mk (.eClosure "x") [] [.mk (.eBinary "-") [] [.mk (.ePath false (.ofIdents ["x"])) [] [], .mk (.eLit "1") [] []]]]]]]]], .mk (.sExpr false) [] [.mk .eIf [] [.mk (.eBinary "==") [] [.mk (.ePath false (.ofIdents ["x"])) [] [], .mk (.eLit "0") [] []], .mk .block [] [.mk (.sExpr false) [] [.mk .eRange [] [.mk (.eLit "1") [] [], .mk (.eLit "8") [] []]]], .mk .eIf [] [.mk (.eBinary ">") [] [.mk (.ePath false (.ofIdents ["x"])) [] [], .mk (.eLit "3") [] []], .mk .block [] [.mk (.sExpr false) [] [.mk .eRange [] [.mk (.eLit "2") [] [], .mk (.eLit "10") [] []]]], .mk (.eBlock none) [] [.mk (.sExpr false) [] [.mk (.eMethodCall "map") [] [.mk .eParen [] [.mk .eRange [] [.mk (.eLit "0") [] [], .mk (.eLit "2") [] []]], .mk (.eClosure "x") [] [.mk (.eBlock none) [] [.mk (.sExpr true) [] [.mk .eReturn [] [.mk (.eBinary "+") [] [.mk (.ePath false (.ofIdents ["x"])) [] [], .mk (.eLit "1") [] []]]]]]]]]]]]]]]]], .mk (.sExpr false) [] [.mk (.eForLoop none "( i , x )") [] [.mk (.eMethodCall "enumerate") [] [.mk (.eMethodCall "iter") [] [.mk (.ePath false (.ofIdents ["ANS"])) [] []]], .mk .block [] [.mk (.sMacro (.ofIdents ["assert_eq"]) "f ( i ) . sum :: < i32 > ( ) , * x") [] []]]]]]

example : passes false ["foo", "marker_a", "bar", "marker"] 2 [] (.stmt auto_enum_closure) = true := by decide +kernel

/-- `tests/auto_enum.rs:384` -/
def auto_enum_transpose : Node :=
  .mk (.iFn "transpose" (some (.mk (.path false ⟨false, [⟨"Option", (some "impl Iterator < Item = i32 > + Clone")⟩]⟩ (some false)) [.mk .argType [.mk (.implTrait [some ⟨false, [⟨"Iterator", (some "Item = i32")⟩]⟩, some (.ofIdents ["Clone"])]) [.mk (.path false (.ofIdents ["i32"]) none) []]]]))) [] [.mk .block [] [.mk (.sExpr false) [] [.mk (.eMethodCall "map") [] [.mk (.eMethodCall "transpose") [] [.mk .eMatch [] [.mk (.ePath false (.ofIdents ["x"])) [] [], .mk (.arm "0") [] [.mk .eCall [] [.mk (.ePath false (.ofIdents ["Some"])) [] [], .mk .eRange [] [.mk (.eLit "1") [] [], .mk (.eLit "8") [] []]]], .mk (.arm "_") [] [.mk (.eBinary "<") [] [.mk (.ePath false (.ofIdents ["x"])) [] [], .mk (.eLit "0") [] []], .mk .eReturn [] [.mk (.ePath false (.ofIdents ["None"])) [] []]], .mk (.arm "_") [] [.mk .eCall [] [.mk (.ePath false (.ofIdents ["Some"])) [] [], .mk .eRange [] [.mk (.eLit "0") [] [], .mk (.eLit "10") [] []]]]]], .mk (.eClosure "i") [] [.mk (.eMethodCall "map") [] [.mk (.eMethodCall "map") [] [.mk (.ePath false (.ofIdents ["i"])) [] [], .mk (.eClosure "x") [] [.mk (.eBinary "+") [] [.mk (.ePath false (.ofIdents ["x"])) [] [], .mk (.eLit "1") [] []]]], .mk (.eClosure "x") [] [.mk (.eBinary "-") [] [.mk (.ePath false (.ofIdents ["x"])) [] [], .mk (.eLit "1") [] []]]]]]]]]

example : passes false ["foo", "marker_a", "bar", "marker"] 1 [.ident "Transpose", .comma, .ident "Iterator", .comma, .ident "Clone"] (.stmt auto_enum_transpose) = true := by decide +kernel

/-- `tests/auto_enum.rs:400` -/
def auto_enum_marker3 : Node :=
  .mk (.iFn "marker3" (some (.mk (.implTrait [some ⟨false, [⟨"Iterator", (some "Item = i32")⟩]⟩]) [.mk (.path false (.ofIdents ["i32"]) none) []]))) [] [.mk .block [] [.mk (.sLocal (.plain "iter")) [] [], .mk (.sExpr true) [] [.mk .eMatch [⟨(.ofIdents ["auto_enum"]), .list [.ident "Iterator"]⟩] [.mk (.ePath false (.ofIdents ["x"])) [] [], .mk (.arm "0") [] [.mk .eAssign [] [.mk (.ePath false (.ofIdents ["iter"])) [] [], .mk (.eMacro (.ofIdents ["marker"]) "2 .. 8") [] [.mk .eRange [] [.mk (.eLit "2") [] [], .mk (.eLit "8") [] []]]]], .mk (.arm "_") [] [.mk .eAssign [] [.mk (.ePath false (.ofIdents ["iter"])) [] [], .mk (.eMacro (.ofIdents ["marker"]) "2 ..= 10") [] [.mk .eRange [] [.mk (.eLit "2") [] [], .mk (.eLit "10") [] []]]]]]], .mk (.sExpr false) [] [.mk .eIf [] [.mk (.eBinary "<") [] [.mk (.ePath false (.ofIdents ["y"])) [] [], .mk (.eLit "0") [] []], .mk .block [] [.mk (.sExpr true) [] [.mk .eReturn [] [.mk .eRange [] [.mk (.ePath false (.ofIdents ["y"])) [] [], .mk (.eLit "0") [] []]]]]]], .mk (.sExpr false) [] [.mk .eMatch [] [.mk (.ePath false (.ofIdents ["y"])) [] [], .mk (.arm "0") [] [.mk (.eMethodCall "flat_map") [] [.mk (.ePath false (.ofIdents ["iter"])) [] [], .mk (.eClosure "x") [] [.mk .eRange [] [.mk (.eLit "0") [] [], .mk (.ePath false (.ofIdents ["x"])) [] []]]]], .mk (.arm "_") [] [.mk (.eMethodCall "map") [] [.mk (.ePath false (.ofIdents ["iter"])) [] [], .mk (.eClosure "x") [] [.mk (.eBlock none) [] [.mk (.sExpr false) [] [.mk .eIf [] [.mk (.eBinary "<") [] [.mk (.ePath false (.ofIdents ["x"])) [] [], .mk (.eLit "0") [] []], .mk .block [] [.mk (.sExpr true) [] [.mk .eReturn [] [.mk (.eBinary "-") [] [.mk (.ePath false (.ofIdents ["x"])) [] [], .mk (.eLit "1") [] []]]]]]], .mk (.sExpr false) [] [.mk (.eBinary "+") [] [.mk (.ePath false (.ofIdents ["x"])) [] [], .mk (.eLit "1") [] []]]]]]]]]]]

example : passes false ["foo", "marker_a", "bar", "marker"] 2 [.ident "Iterator"] (.stmt auto_enum_marker3) = true := by decide +kernel

/-- `tests/auto_enum.rs:425` -/
def auto_enum_marker4 : Node :=
  .mk (.iFn "marker4" (some (.mk (.implTrait [some ⟨false, [⟨"Iterator", (some "Item = i32")⟩]⟩]) [.mk (.path false (.ofIdents ["i32"]) none) []]))) [] [.mk .block [] [.mk (.sLocal (.plain "iter")) [] [], .mk (.sExpr true) [] [.mk .eMatch [⟨(.ofIdents ["auto_enum"]), .list [.ident "Iterator"]⟩] [.mk (.ePath false (.ofIdents ["x"])) [] [], .mk (.arm "0") [] [.mk .eAssign [] [.mk (.ePath false (.ofIdents ["iter"])) [] [], .mk (.eMacro (.ofIdents ["marker"]) "2 .. 8") [] [.mk .eRange [] [.mk (.eLit "2") [] [], .mk (.eLit "8") [] []]]]], .mk (.arm "_") [] [.mk (.eBinary "<") [] [.mk (.ePath false (.ofIdents ["y"])) [] [], .mk (.eLit "0") [] []], .mk .eReturn [] [.mk .eRange [] [.mk (.ePath false (.ofIdents ["y"])) [] [], .mk (.eLit "0") [] []]]], .mk (.arm "_") [] [.mk .eAssign [] [.mk (.ePath false (.ofIdents ["iter"])) [] [], .mk (.eMacro (.ofIdents ["marker"]) "2 ..= 10") [] [.mk .eRange [] [.mk (.eLit "2") [] [], .mk (.eLit "10") [] []]]]]]], .mk (.sExpr false) [] [.mk .eMatch [] [.mk (.ePath false (.ofIdents ["y"])) [] [], .mk (.arm "0") [] [.mk (.eMethodCall "flat_map") [] [.mk (.ePath false (.ofIdents ["iter"])) [] [], .mk (.eClosure "x") [] [.mk .eRange [] [.mk (.eLit "0") [] [], .mk (.ePath false (.ofIdents ["x"])) [] []]]]], .mk (.arm "_") [] [.mk (.eMethodCall "map") [] [.mk (.ePath false (.ofIdents ["iter"])) [] [], .mk (.eClosure "x") [] [.mk (.eBinary "+") [] [.mk (.ePath false (.ofIdents ["x"])) [] [], .mk (.eLit "1") [] []]]]]]]]]

example : passes false ["foo", "marker_a", "bar", "marker"] 2 [.ident "marker", .eq, .ident "marker_a", .comma, .ident "Iterator"] (.stmt auto_enum_marker4) = true := by decide +kernel

/-- `tests/auto_enum.rs:442` -/
def auto_enum_marker5 : Node :=
  .mk (.iFn "marker5" (some (.mk (.implTrait [some ⟨false, [⟨"Iterator", (some "Item = i32")⟩]⟩]) [.mk (.path false (.ofIdents ["i32"]) none) []]))) [] [.mk .block [] [.mk (.sLocal (.plain "iter")) [] [], .mk (.sExpr true) [] [.mk .eMatch [⟨(.ofIdents ["auto_enum"]), .list [.ident "marker", .eq, .ident "marker_a", .comma, .ident "Iterator"]⟩] [.mk (.ePath false (.ofIdents ["x"])) [] [], .mk (.arm "0") [] [.mk .eAssign [] [.mk (.ePath false (.ofIdents ["iter"])) [] [], .mk (.eMacro (.ofIdents ["marker_a"]) "2 .. 8") [] [.mk .eRange [] [.mk (.eLit "2") [] [], .mk (.eLit "8") [] []]]]], .mk (.arm "_") [] [.mk (.eBinary "<") [] [.mk (.ePath false (.ofIdents ["y"])) [] [], .mk (.eLit "0") [] []], .mk .eReturn [] [.mk .eRange [] [.mk (.ePath false (.ofIdents ["y"])) [] [], .mk (.eLit "0") [] []]]], .mk (.arm "_") [] [.mk .eAssign [] [.mk (.ePath false (.ofIdents ["iter"])) [] [], .mk (.eMacro (.ofIdents ["marker_a"]) "2 ..= 10") [] [.mk .eRange [] [.mk (.eLit "2") [] [], .mk (.eLit "10") [] []]]]]]], .mk (.sExpr false) [] [.mk .eMatch [] [.mk (.ePath false (.ofIdents ["y"])) [] [], .mk (.arm "0") [] [.mk (.eMethodCall "flat_map") [] [.mk (.ePath false (.ofIdents ["iter"])) [] [], .mk (.eClosure "x") [] [.mk .eRange [] [.mk (.eLit "0") [] [], .mk (.ePath false (.ofIdents ["x"])) [] []]]]], .mk (.arm "_") [] [.mk (.eMethodCall "map") [] [.mk (.ePath false (.ofIdents ["iter"])) [] [], .mk (.eClosure "x") [] [.mk (.eBinary "+") [] [.mk (.ePath false (.ofIdents ["x"])) [] [], .mk (.eLit "1") [] []]]]]]]]]

example : passes false ["foo", "marker_a", "bar", "marker"] 2 [.ident "Iterator"] (.stmt auto_enum_marker5) = true := by decide +kernel

/-- `tests/auto_enum.rs:459` -/
def auto_enum_marker6 : Node :=
  .mk (.iFn "marker6" (some (.mk (.implTrait [some ⟨false, [⟨"Iterator", (some "Item = i32")⟩]⟩]) [.mk (.path false (.ofIdents ["i32"]) none) []]))) [] [.mk .block [] [.mk (.sLocal (.plain "_iter")) [⟨(.ofIdents ["auto_enum"]), .list [.ident "Iterator"]⟩] [.mk .eMatch [] [.mk (.ePath false (.ofIdents ["x"])) [] [], .mk (.arm "0") [] [.mk .eRange [] [.mk (.eLit "1") [] [], .mk (.eLit "8") [] []]], .mk (.arm "_") [] [.mk (.eMethodCall "map") [] [.mk .eParen [] [.mk .eRange [] [.mk (.eLit "0") [] [], .mk (.eLit "2") [] []]], .mk (.eClosure "x") [] [.mk (.eBinary "+") [] [.mk (.ePath false (.ofIdents ["x"])) [] [], .mk (.eLit "1") [] []]]]]]], .mk (.sLocal (.plain "_iter")) [⟨(.ofIdents ["auto_enum"]), .list [.ident "Iterator", .comma, .ident "marker", .eq, .ident "bar"]⟩] [.mk .eMatch [] [.mk (.ePath false (.ofIdents ["x"])) [] [], .mk (.arm "0") [] [.mk .eRange [] [.mk (.eLit "1") [] [], .mk (.eLit "8") [] []]], .mk (.arm "1") [] [.mk .eReturn [] [.mk (.eMacro (.ofIdents ["foo"]) "1 .. 9") [] [.mk .eRange [] [.mk (.eLit "1") [] [], .mk (.eLit "9") [] []]]]], .mk (.arm "n") [] [.mk (.eBinary ">") [] [.mk (.ePath false (.ofIdents ["n"])) [] [], .mk (.eLit "3") [] []], .mk (.eBlock none) [] [.mk (.sExpr false) [] [.mk .eMatch [⟨(.ofIdents ["auto_enum"]), .list [.ident "Iterator", .comma, .ident "marker", .eq, .ident "baz"]⟩] [.mk (.ePath false (.ofIdents ["x"])) [] [], .mk (.arm "0") [] [.mk .eRange [] [.mk (.eLit "1") [] [], .mk (.eLit "8") [] []]], .mk (.arm "1") [] [.mk .eReturn [] [.mk (.eMacro (.ofIdents ["foo"]) "1 .. 9") [] [.mk .eRange [] [.mk (.eLit "1") [] [], .mk (.eLit "9") [] []]]]], .mk (.arm "2") [] [.mk (.eMacro (.ofIdents ["baz"]) "1 .. 9") [] [.mk .eRange [] [.mk (.eLit "1") [] [], .mk (.eLit "9") [] []]]], .mk (.arm "n") [] [.mk (.eBinary ">") [] [.mk (.ePath false (.ofIdents ["n"])) [] [], .mk (.eLit "3") [] []], .mk .eRange [] [.mk (.eLit "2") [] [], .mk (.eLit "10") [] []]], .mk (.arm "_") [] [.mk (.eMethodCall "map") [] [.mk .eParen [] [.mk .eRange [] [.mk (.eLit "0") [] [], .mk (.eLit "2") [] []]], .mk (.eClosure "x") [] [.mk (.eBinary "+") [] [.mk (.ePath false (.ofIdents ["x"])) [] [], .mk (.eLit "1") [] []]]]]]]]], .mk (.arm "_") [] [.mk (.eMethodCall "map") [] [.mk .eParen [] [.mk .eRange [] [.mk (.eLit "0") [] [], .mk (.eLit "2") [] []]], .mk (.eClosure "x") [] [.mk (.eBinary "+") [] [.mk (.ePath false (.ofIdents ["x"])) [] [], .mk (.eLit "1") [] []]]]]]], .mk (.sExpr false) [] [.mk .eMatch [] [.mk (.ePath false (.ofIdents ["x"])) [] [], .mk (.arm "0") [] [.mk .eRange [] [.mk (.eLit "1") [] [], .mk (.eLit "8") [] []]], .mk (.arm "_") [] [.mk (.eMethodCall "map") [] [.mk .eParen [] [.mk .eRange [] [.mk (.eLit "0") [] [], .mk (.eLit "2") [] []]], .mk (.eClosure "x") [] [.mk (.eBinary "+") [] [.mk (.ePath false (.ofIdents ["x"])) [] [], .mk (.eLit "1") [] []]]]]]]]]

example : passes false ["foo", "marker_a", "bar", "marker"] 4 [.ident "Iterator", .comma, .ident "marker", .eq, .ident "foo"] (.stmt auto_enum_marker6) = true := by decide +kernel

/-- `tests/auto_enum.rs:501` -/
def auto_enum_transpose_ok : Node :=
  .mk (.iFn "transpose_ok" (some (.mk (.path false ⟨false, [⟨"io", none⟩, ⟨"Result", (some "impl io :: Write")⟩]⟩ (some false)) [.mk .argType [.mk (.implTrait [some (.ofIdents ["io", "Write"])]) []]]))) [] [.mk .block [] [.mk (.sExpr false) [] [.mk (.eMethodCall "transpose_ok") [] [.mk .eIf [] [.mk (.eLet "Some ( file )") [] [.mk (.ePath false (.ofIdents ["file"])) [] []], .mk .block [] [.mk (.sExpr false) [] [.mk .eCall [] [.mk (.ePath false (.ofIdents ["File", "create"])) [] [], .mk (.ePath false (.ofIdents ["file"])) [] []]]], .mk (.eBlock none) [] [.mk (.sExpr false) [] [.mk .eCall [] [.mk (.ePath false (.ofIdents ["Ok"])) [] [], .mk .eCall [] [.mk (.ePath false (.ofIdents ["io", "stdout"])) [] []]]]]]]]]]

example : passes false ["foo", "marker_a", "bar", "marker"] 1 [.ident "Transpose", .comma, .ident "Write"] (.stmt auto_enum_transpose_ok) = true := by decide +kernel

/-- `tests/auto_enum.rs:507` -/
def auto_enum_transpose_option : Node :=
  .mk (.iFn "transpose_option" (some (.mk (.path false ⟨false, [⟨"Option", (some "impl io :: Write")⟩]⟩ (some false)) [.mk .argType [.mk (.implTrait [some (.ofIdents ["io", "Write"])]) []]]))) [] [.mk .block [] [.mk (.sExpr false) [] [.mk (.eMethodCall "transpose") [] [.mk .eIf [] [.mk (.eLet "Some ( file )") [] [.mk (.ePath false (.ofIdents ["file"])) [] []], .mk .block [] [.mk (.sExpr false) [] [.mk (.eMethodCall "ok") [] [.mk .eCall [] [.mk (.ePath false (.ofIdents ["File", "create"])) [] [], .mk (.ePath false (.ofIdents ["file"])) [] []]]]], .mk (.eBlock none) [] [.mk (.sExpr false) [] [.mk .eCall [] [.mk (.ePath false (.ofIdents ["Some"])) [] [], .mk .eCall [] [.mk (.ePath false (.ofIdents ["io", "stdout"])) [] []]]]]]]]]]

example : passes false ["foo", "marker_a", "bar", "marker"] 1 [.ident "Transpose", .comma, .ident "Write"] (.stmt auto_enum_transpose_option) = true := by decide +kernel

/-- `tests/auto_enum.rs:519` -/
def auto_enum_transpose_result : Node :=
  .mk (.iFn "transpose_result" (some (.mk (.path false ⟨false, [⟨"Result", (some "impl io :: Write , impl Error")⟩]⟩ (some false)) [.mk .argType [.mk (.implTrait [some (.ofIdents ["io", "Write"])]) []], .mk .argType [.mk (.implTrait [some (.ofIdents ["Error"])]) []]]))) [] [.mk .block [] [.mk (.sExpr false) [] [.mk (.eMethodCall "transpose") [] [.mk .eIf [] [.mk (.eLet "Some ( file )") [] [.mk (.ePath false (.ofIdents ["file"])) [] []], .mk .block [] [.mk (.sExpr false) [] [.mk (.eMethodCall "map_err") [] [.mk .eCall [] [.mk (.ePath false (.ofIdents ["File", "create"])) [] [], .mk (.ePath false (.ofIdents ["file"])) [] []], .mk (.ePath false (.ofIdents ["IoError", "Io"])) [] []]]], .mk (.eBlock none) [] [.mk (.sLocal (.typed "out" (.mk (.path false ⟨false, [⟨"Result", (some "io :: Stdout , io :: Error")⟩]⟩ (some false)) [.mk .argType [.mk (.path false (.ofIdents ["io", "Stdout"]) none) []], .mk .argType [.mk (.path false (.ofIdents ["io", "Error"]) none) []]]))) [] [.mk .eCall [] [.mk (.ePath false (.ofIdents ["Ok"])) [] [], .mk .eCall [] [.mk (.ePath false (.ofIdents ["io", "stdout"])) [] []]]], .mk (.sExpr false) [] [.mk (.ePath false (.ofIdents ["out"])) [] []]]]]]]]

example : passes false ["foo", "marker_a", "bar", "marker"] 1 [.ident "Transpose", .comma, .ident "Write", .comma, .ident "Debug", .comma, .ident "Display", .comma, .ident "Error"] (.stmt auto_enum_transpose_result) = true := by decide +kernel

/-- `tests/auto_enum.rs:531` -/
def auto_enum_transpose_err : Node :=
  .mk (.iFn "transpose_err" (some (.mk (.path false ⟨false, [⟨"Result", (some "( ) , impl Error")⟩]⟩ (some false)) [.mk .argType [.mk (.other "()") []], .mk .argType [.mk (.implTrait [some (.ofIdents ["Error"])]) []]]))) [] [.mk .block [] [.mk (.sExpr false) [] [.mk (.eMethodCall "transpose_err") [] [.mk .eIf [] [.mk (.eLet "Some ( _f )") [] [.mk (.ePath false (.ofIdents ["file"])) [] []], .mk .block [] [.mk (.sExpr false) [] [.mk .eCall [] [.mk (.ePath false (.ofIdents ["Err"])) [] [], .mk .eCall [] [.mk (.ePath false (.ofIdents ["IoError", "Io2"])) [] [], .mk .eCall [] [.mk (.ePath false (.ofIdents ["io", "Error", "from"])) [] [], .mk (.ePath false (.ofIdents ["io", "ErrorKind", "NotFound"])) [] []]]]]], .mk (.eBlock none) [] [.mk (.sExpr false) [] [.mk .eCall [] [.mk (.ePath false (.ofIdents ["Err"])) [] [], .mk .eCall [] [.mk (.ePath false (.ofIdents ["io", "Error", "from"])) [] [], .mk (.ePath false (.ofIdents ["io", "ErrorKind", "NotFound"])) [] []]]]]]]]]]

example : passes false ["foo", "marker_a", "bar", "marker"] 1 [.ident "Transpose", .comma, .ident "Debug", .comma, .ident "Display", .comma, .ident "Error"] (.stmt auto_enum_transpose_err) = true := by decide +kernel

/-- `tests/auto_enum.rs:542` -/
def auto_enum_try_operator : Node :=
  .mk (.iFn "try_operator" (some (.mk (.path false ⟨false, [⟨"Result", (some "( ) , impl Error")⟩]⟩ (some false)) [.mk .argType [.mk (.other "()") []], .mk .argType [.mk (.implTrait [some (.ofIdents ["Error"])]) []]]))) [] [.mk .block [] [.mk (.sExpr false) [] [.mk .eIf [] [.mk (.eLet "Some ( _f )") [] [.mk (.ePath false (.ofIdents ["file"])) [] []], .mk .block [] [.mk (.sExpr true) [] [.mk .eTry [] [.mk .eCall [] [.mk (.ePath false (.ofIdents ["Err"])) [] [], .mk .eCall [] [.mk (.ePath false (.ofIdents ["IoError", "Io2"])) [] [], .mk .eCall [] [.mk (.ePath false (.ofIdents ["io", "Error", "from"])) [] [], .mk (.ePath false (.ofIdents ["io", "ErrorKind", "NotFound"])) [] []]]]]]], .mk (.eBlock none) [] [.mk (.sExpr true) [] [.mk .eTry [] [.mk .eCall [] [.mk (.ePath false (.ofIdents ["Err"])) [] [], .mk .eCall [] [.mk (.ePath false (.ofIdents ["io", "Error", "from"])) [] [], .mk (.ePath false (.ofIdents ["io", "ErrorKind", "NotFound"])) [] []]]]]]]], .mk (.sExpr false) [] [.mk .eCall [] [.mk (.ePath false (.ofIdents ["Ok"])) [] [], .mk .eTuple [] []]]]]

example : passes false ["foo", "marker_a", "bar", "marker"] 1 [.ident "Debug", .comma, .ident "Display", .comma, .ident "Error"] (.stmt auto_enum_try_operator) = true := by decide +kernel

/-- `tests/auto_enum.rs:554` -/
def auto_enum_if_attr : Node :=
  .mk (.iFn "if_attr" (some (.mk (.implTrait [some ⟨false, [⟨"Iterator", (some "Item = u8")⟩]⟩]) [.mk (.path false (.ofIdents ["u8"]) none) []]))) [] [.mk .block [] [.mk (.sLocal (.plain "res")) [] [.mk (.eBlock none) [] [.mk (.sExpr false) [] [.mk .eIf [⟨(.ofIdents ["auto_enum"]), .list [.ident "Iterator"]⟩] [.mk (.ePath false (.ofIdents ["x"])) [] [], .mk .block [] [.mk (.sExpr false) [] [.mk .eCall [] [.mk (.ePath false (.ofIdents ["iter", "once"])) [] [], .mk (.eLit "0") [] []]]], .mk (.eBlock none) [] [.mk (.sExpr false) [] [.mk .eCall [] [.mk (.ePath false (.ofIdents ["iter", "repeat"])) [] [], .mk (.eLit "1") [] []]]]]]]], .mk (.sExpr false) [] [.mk (.ePath false (.ofIdents ["res"])) [] []]]]

example : passes false ["foo", "marker_a", "bar", "marker"] 1 [] (.stmt auto_enum_if_attr) = true := by decide +kernel

/-- `tests/auto_enum.rs:563` -/
def auto_enum_if_attr_in_if : Node :=
  .mk (.iFn "if_attr_in_if" (some (.mk (.implTrait [some ⟨false, [⟨"Iterator", (some "Item = i32")⟩]⟩]) [.mk (.path false (.ofIdents ["i32"]) none) []]))) [] [.mk .block [] [.mk (.sExpr false) [] [.mk .eIf [] [.mk (.eBinary "==") [] [.mk (.ePath false (.ofIdents ["x"])) [] [], .mk (.eLit "0") [] []], .mk .block [] [.mk (.sExpr false) [] [.mk .eRange [] [.mk (.eLit "1") [] [], .mk (.eLit "8") [] []]]], .mk .eIf [] [.mk (.eBinary ">") [] [.mk (.ePath false (.ofIdents ["x"])) [] [], .mk (.eLit "3") [] []], .mk .block [] [.mk (.sExpr false) [] [.mk .eIf [⟨(.ofIdents ["nested"]), .path⟩] [.mk (.eBinary ">") [] [.mk (.ePath false (.ofIdents ["x"])) [] [], .mk (.eLit "4") [] []], .mk .block [] [.mk (.sExpr false) [] [.mk .eRange [] [.mk (.eLit "2") [] [], .mk (.eLit "10") [] []]]], .mk (.eBlock none) [] [.mk (.sExpr false) [] [.mk (.eMethodCall "map") [] [.mk .eParen [] [.mk .eRange [] [.mk (.eLit "11") [] [], .mk (.eLit "20") [] []]], .mk (.eClosure "x") [] [.mk (.eBinary "-") [] [.mk (.ePath false (.ofIdents ["x"])) [] [], .mk (.eLit "1") [] []]]]]]]]], .mk (.eBlock none) [] [.mk (.sExpr false) [] [.mk (.eMethodCall "map") [] [.mk .eParen [] [.mk .eRange [] [.mk (.eLit "0") [] [], .mk (.eLit "2") [] []]], .mk (.eClosure "x") [] [.mk (.eBinary "+") [] [.mk (.ePath false (.ofIdents ["x"])) [] [], .mk (.eLit "1") [] []]]]]]]]]]]

example : passes false ["foo", "marker_a", "bar", "marker"] 1 [.ident "Iterator"] (.stmt auto_enum_if_attr_in_if) = true := by decide +kernel

/-- `tests/auto_enum.rs:575` -/
def auto_enum_non_stmt_expr_match1 : Node :=
  .mk (.iFn "non_stmt_expr_match1" (some (.mk (.path false ⟨false, [⟨"Option", (some "impl Iterator < Item = u8 >")⟩]⟩ (some false)) [.mk .argType [.mk (.implTrait [some ⟨false, [⟨"Iterator", (some "Item = u8")⟩]⟩]) [.mk (.path false (.ofIdents ["u8"]) none) []]]]))) [] [.mk .block [] [.mk (.sExpr false) [] [.mk .eCall [] [.mk (.ePath false (.ofIdents ["Some"])) [] [], .mk .eMatch [⟨(.ofIdents ["auto_enum"]), .list [.ident "Iterator"]⟩] [.mk (.ePath false (.ofIdents ["x"])) [] [], .mk (.arm "true") [] [.mk .eCall [] [.mk (.ePath false (.ofIdents ["iter", "once"])) [] [], .mk (.eLit "0") [] []]], .mk (.arm "_") [] [.mk .eCall [] [.mk (.ePath false (.ofIdents ["iter", "repeat"])) [] [], .mk (.eLit "1") [] []]]]]]]]

example : passes false ["foo", "marker_a", "bar", "marker"] 1 [] (.stmt auto_enum_non_stmt_expr_match1) = true := by decide +kernel

/-- `tests/auto_enum.rs:586` -/
def auto_enum_non_stmt_expr_match2 : Node :=
  .mk (.iFn "non_stmt_expr_match2" (some (.mk (.path false ⟨false, [⟨"Option", (some "impl Iterator < Item = u8 >")⟩]⟩ (some false)) [.mk .argType [.mk (.implTrait [some ⟨false, [⟨"Iterator", (some "Item = u8")⟩]⟩]) [.mk (.path false (.ofIdents ["u8"]) none) []]]]))) [] [.mk .block [] [.mk (.sExpr false) [] [.mk .eCall [] [.mk (.ePath false (.ofIdents ["Some"])) [] [], .mk (.eBlock none) [] [.mk (.sExpr false) [] [.mk .eMatch [⟨(.ofIdents ["auto_enum"]), .list [.ident "Iterator"]⟩] [.mk (.ePath false (.ofIdents ["x"])) [] [], .mk (.arm "true") [] [.mk .eCall [] [.mk (.ePath false (.ofIdents ["iter", "once"])) [] [], .mk (.eLit "0") [] []]], .mk (.arm "_") [] [.mk .eCall [] [.mk (.ePath false (.ofIdents ["iter", "repeat"])) [] [], .mk (.eLit "1") [] []]]]]]]]]]

example : passes false ["foo", "marker_a", "bar", "marker"] 1 [] (.stmt auto_enum_non_stmt_expr_match2) = true := by decide +kernel

/-- `tests/auto_enum.rs:597` -/
def auto_enum_non_stmt_expr_match3 : Node :=
  .mk (.iFn "non_stmt_expr_match3" none) [] [.mk .block [] [.mk (.sExpr false) [] [.mk (.eLoop none) [] [.mk .block [] [.mk (.sLocal (.plain "_")) [] [.mk (.eBlock none) [] [.mk (.sExpr false) [] [.mk .eMatch [⟨(.ofIdents ["auto_enum"]), .list [.ident "Iterator"]⟩] [.mk (.ePath false (.ofIdents ["x"])) [] [], .mk (.arm "true") [] [.mk .eCall [] [.mk (.ePath false (.ofIdents ["iter", "once"])) [] [], .mk (.eLit "0") [] []]], .mk (.arm "_") [] [.mk .eCall [] [.mk (.ePath false (.ofIdents ["iter", "repeat"])) [] [], .mk (.eLit "1") [] []]]]]]], .mk (.sExpr true) [] [.mk (.eBreak none) [] []]]]]]]

example : passes false ["foo", "marker_a", "bar", "marker"] 1 [] (.stmt auto_enum_non_stmt_expr_match3) = true := by decide +kernel

/-- `tests/auto_enum.rs:611` -/
def auto_enum_non_stmt_expr_if : Node :=
  .mk (.iFn "non_stmt_expr_if" (some (.mk (.path false ⟨false, [⟨"Option", (some "impl Iterator < Item = u8 >")⟩]⟩ (some false)) [.mk .argType [.mk (.implTrait [some ⟨false, [⟨"Iterator", (some "Item = u8")⟩]⟩]) [.mk (.path false (.ofIdents ["u8"]) none) []]]]))) [] [.mk .block [] [.mk (.sExpr false) [] [.mk .eCall [] [.mk (.ePath false (.ofIdents ["Some"])) [] [], .mk .eIf [⟨(.ofIdents ["auto_enum"]), .list [.ident "Iterator"]⟩] [.mk (.ePath false (.ofIdents ["x"])) [] [], .mk .block [] [.mk (.sExpr false) [] [.mk .eCall [] [.mk (.ePath false (.ofIdents ["iter", "once"])) [] [], .mk (.eLit "0") [] []]]], .mk (.eBlock none) [] [.mk (.sExpr false) [] [.mk .eCall [] [.mk (.ePath false (.ofIdents ["iter", "repeat"])) [] [], .mk (.eLit "1") [] []]]]]]]]]

example : passes false ["foo", "marker_a", "bar", "marker"] 1 [] (.stmt auto_enum_non_stmt_expr_if) = true := by decide +kernel

/-- `tests/auto_enum.rs:621` -/
def auto_enum_match_in_match : Node :=
  .mk (.iFn "match_in_match" (some (.mk (.implTrait [some ⟨false, [⟨"Iterator", (some "Item = i32")⟩]⟩]) [.mk (.path false (.ofIdents ["i32"]) none) []]))) [] [.mk .block [] [.mk (.sExpr false) [] [.mk .eMatch [] [.mk (.ePath false (.ofIdents ["x"])) [] [], .mk (.arm "0") [] [.mk .eRange [] [.mk (.eLit "1") [] [], .mk (.eLit "8") [] []]], .mk (.arm "n") [⟨(.ofIdents ["nested"]), .path⟩] [.mk (.eBinary ">") [] [.mk (.ePath false (.ofIdents ["n"])) [] [], .mk (.eLit "3") [] []], .mk .eMatch [] [.mk (.ePath false (.ofIdents ["x"])) [] [], .mk (.arm "2 ..= 10") [] [.mk (.eMethodCall "map") [] [.mk .eParen [] [.mk .eRange [] [.mk (.eLit "1") [] [], .mk (.eCast "i32") [] [.mk (.ePath false (.ofIdents ["x"])) [] []]]], .mk (.eClosure "x") [] [.mk (.eBinary "-") [] [.mk (.ePath false (.ofIdents ["x"])) [] [], .mk (.eLit "1") [] []]]]], .mk (.arm "_") [] [.mk .eRange [] [.mk (.eLit "2") [] [], .mk (.eLit "10") [] []]]]], .mk (.arm "_") [] [.mk (.eMethodCall "map") [] [.mk .eParen [] [.mk .eRange [] [.mk (.eLit "0") [] [], .mk (.eLit "2") [] []]], .mk (.eClosure "x") [] [.mk (.eBinary "+") [] [.mk (.ePath false (.ofIdents ["x"])) [] [], .mk (.eLit "1") [] []]]]]]]]]

example : passes false ["foo", "marker_a", "bar", "marker"] 1 [.ident "Iterator"] (.stmt auto_enum_match_in_match) = true := by decide +kernel

/-- `tests/auto_enum.rs:637` -/
def auto_enum_match_in_match_nested : Node :=
  .mk (.iFn "match_in_match_nested" (some (.mk (.implTrait [some ⟨false, [⟨"Iterator", (some "Item = i32")⟩]⟩]) [.mk (.path false (.ofIdents ["i32"]) none) []]))) [] [.mk .block [] [.mk (.sExpr false) [] [.mk .eMatch [] [.mk (.ePath false (.ofIdents ["x"])) [] [], .mk (.arm "0") [] [.mk .eRange [] [.mk (.eLit "1") [] [], .mk (.eLit "8") [] []]], .mk (.arm "n") [⟨(.ofIdents ["nested"]), .path⟩] [.mk (.eBinary ">") [] [.mk (.ePath false (.ofIdents ["n"])) [] [], .mk (.eLit "3") [] []], .mk .eMatch [] [.mk (.ePath false (.ofIdents ["x"])) [] [], .mk (.arm "2 ..= 10") [] [.mk (.eBlock none) [] [.mk (.sExpr false) [] [.mk .eMatch [⟨(.ofIdents ["nested"]), .path⟩] [.mk (.ePath false (.ofIdents ["n"])) [] [], .mk (.arm "4") [] [.mk (.eMethodCall "map") [] [.mk .eParen [] [.mk .eRange [] [.mk (.eLit "1") [] [], .mk (.eCast "i32") [] [.mk (.ePath false (.ofIdents ["x"])) [] []]]], .mk (.eClosure "x") [] [.mk (.eBinary "-") [] [.mk (.ePath false (.ofIdents ["x"])) [] [], .mk (.eLit "1") [] []]]]], .mk (.arm "_") [] [.mk (.eMethodCall "map") [] [.mk .eParen [] [.mk .eRange [] [.mk (.eLit "1") [] [], .mk (.eCast "i32") [] [.mk (.ePath false (.ofIdents ["x"])) [] []]]], .mk (.eClosure "x") [] [.mk (.eBinary "+") [] [.mk (.ePath false (.ofIdents ["x"])) [] [], .mk (.eLit "1") [] []]]]]]]]], .mk (.arm "_") [] [.mk .eRange [] [.mk (.eLit "2") [] [], .mk (.eLit "10") [] []]]]], .mk (.arm "_") [] [.mk (.eMethodCall "map") [] [.mk .eParen [] [.mk .eRange [] [.mk (.eLit "0") [] [], .mk (.eLit "2") [] []]], .mk (.eClosure "x") [] [.mk (.eBinary "+") [] [.mk (.ePath false (.ofIdents ["x"])) [] [], .mk (.eLit "1") [] []]]]]]]]]

example : passes false ["foo", "marker_a", "bar", "marker"] 1 [.ident "Iterator"] (.stmt auto_enum_match_in_match_nested) = true := by decide +kernel

/-- `tests/auto_enum.rs:659` -/
def auto_enum_in_block : Node :=
  .mk (.iFn "in_block" (some (.mk (.implTrait [some ⟨false, [⟨"Iterator", (some "Item = i32")⟩]⟩]) [.mk (.path false (.ofIdents ["i32"]) none) []]))) [] [.mk .block [] [.mk (.sExpr false) [] [.mk (.eBlock none) [] [.mk (.sExpr false) [] [.mk (.eBlock none) [] [.mk (.sExpr false) [] [.mk (.eBlock none) [] [.mk (.sExpr false) [] [.mk .eUnsafe [] [.mk (.sExpr false) [] [.mk (.eBlock none) [] [.mk (.sExpr false) [] [.mk (.eBlock none) [] [.mk (.sExpr false) [] [.mk .eUnsafe [] [.mk (.sExpr false) [] [.mk .eUnsafe [] [.mk (.sExpr false) [] [.mk (.eBlock none) [] [.mk (.sExpr false) [] [.mk .eMatch [] [.mk (.ePath false (.ofIdents ["x"])) [] [], .mk (.arm "0") [] [.mk .eRange [] [.mk (.eLit "1") [] [], .mk (.eLit "8") [] []]], .mk (.arm "n") [⟨(.ofIdents ["nested"]), .path⟩] [.mk (.eBinary ">") [] [.mk (.ePath false (.ofIdents ["n"])) [] [], .mk (.eLit "3") [] []], .mk (.eBlock none) [] [.mk (.sExpr false) [] [.mk (.eBlock none) [] [.mk (.sExpr false) [] [.mk (.eBlock none) [] [.mk (.sExpr false) [] [.mk .eUnsafe [] [.mk (.sExpr false) [] [.mk (.eBlock none) [] [.mk (.sExpr false) [] [.mk .eIf [] [.mk (.eBinary ">") [] [.mk (.ePath false (.ofIdents ["x"])) [] [], .mk (.eLit "10") [] []], .mk .block [] [.mk (.sExpr false) [] [.mk (.eMethodCall "map") [] [.mk .eParen [] [.mk .eRange [] [.mk (.eUnary "-") [] [.mk (.eLit "10") [] []], .mk (.eCast "i32") [] [.mk (.ePath false (.ofIdents ["x"])) [] []]]], .mk (.eClosure "x") [] [.mk (.eBinary "-") [] [.mk (.ePath false (.ofIdents ["x"])) [] [], .mk (.eLit "4") [] []]]]]], .mk (.eBlock none) [] [.mk (.sExpr false) [] [.mk (.eMethodCall "map") [] [.mk .eParen [] [.mk .eRange [] [.mk (.eLit "1") [] [], .mk (.eLit "4") [] []]], .mk (.eClosure "x") [] [.mk (.eBinary "-") [] [.mk (.ePath false (.ofIdents ["x"])) [] [], .mk (.eLit "4") [] []]]]]]]]]]]]]]]]]], .mk (.arm "_") [] [.mk (.eMethodCall "map") [] [.mk .eParen [] [.mk .eRange [] [.mk (.eLit "0") [] [], .mk (.eLit "2") [] []]], .mk (.eClosure "x") [] [.mk (.eBinary "+") [] [.mk (.ePath false (.ofIdents ["x"])) [] [], .mk (.eLit "1") [] []]]]]]]]]]]]]]]]]]]]]]]]]]]

example : passes false ["foo", "marker_a", "bar", "marker"] 1 [.ident "Iterator"] (.stmt auto_enum_in_block) = true := by decide +kernel

/-- `tests/auto_enum.rs:680` -/
def auto_enum_match_in_if : Node :=
  .mk (.iFn "match_in_if" (some (.mk (.implTrait [some ⟨false, [⟨"Iterator", (some "Item = i32")⟩]⟩]) [.mk (.path false (.ofIdents ["i32"]) none) []]))) [] [.mk .block [] [.mk (.sExpr false) [] [.mk .eIf [] [.mk (.eBinary "==") [] [.mk (.ePath false (.ofIdents ["x"])) [] [], .mk (.eLit "0") [] []], .mk .block [] [.mk (.sExpr false) [] [.mk .eRange [] [.mk (.eLit "1") [] [], .mk (.eLit "8") [] []]]], .mk .eIf [] [.mk (.eBinary ">") [] [.mk (.ePath false (.ofIdents ["x"])) [] [], .mk (.eLit "3") [] []], .mk .block [] [.mk (.sExpr false) [] [.mk .eMatch [⟨(.ofIdents ["nested"]), .path⟩] [.mk (.ePath false (.ofIdents ["x"])) [] [], .mk (.arm "1 ..= 4") [] [.mk .eRange [] [.mk (.eLit "2") [] [], .mk (.eLit "10") [] []]], .mk (.arm "_") [] [.mk (.eMethodCall "map") [] [.mk .eParen [] [.mk .eRange [] [.mk (.eLit "11") [] [], .mk (.eLit "20") [] []]], .mk (.eClosure "x") [] [.mk (.eBinary "-") [] [.mk (.ePath false (.ofIdents ["x"])) [] [], .mk (.eLit "1") [] []]]]]]]], .mk (.eBlock none) [] [.mk (.sExpr false) [] [.mk (.eMethodCall "map") [] [.mk .eParen [] [.mk .eRange [] [.mk (.eLit "0") [] [], .mk (.eLit "2") [] []]], .mk (.eClosure "x") [] [.mk (.eBinary "+") [] [.mk (.ePath false (.ofIdents ["x"])) [] [], .mk (.eLit "1") [] []]]]]]]]]]]

example : passes false ["foo", "marker_a", "bar", "marker"] 1 [.ident "Iterator"] (.stmt auto_enum_match_in_if) = true := by decide +kernel

/-- `tests/auto_enum.rs:698` -/
def auto_enum_if_in_block_if : Node :=
  .mk (.iFn "if_in_block_if" (some (.mk (.implTrait [some ⟨false, [⟨"Iterator", (some "Item = i32")⟩]⟩]) [.mk (.path false (.ofIdents ["i32"]) none) []]))) [] [.mk .block [] [.mk (.sExpr false) [] [.mk .eIf [] [.mk (.eBinary "==") [] [.mk (.ePath false (.ofIdents ["x"])) [] [], .mk (.eLit "0") [] []], .mk .block [] [.mk (.sExpr false) [] [.mk .eRange [] [.mk (.eLit "1") [] [], .mk (.eLit "8") [] []]]], .mk .eIf [] [.mk (.eBinary ">") [] [.mk (.ePath false (.ofIdents ["x"])) [] [], .mk (.eLit "3") [] []], .mk .block [] [.mk (.sExpr false) [] [.mk (.eBlock none) [⟨(.ofIdents ["nested"]), .path⟩] [.mk (.sExpr false) [] [.mk .eIf [] [.mk (.eBinary ">") [] [.mk (.ePath false (.ofIdents ["x"])) [] [], .mk (.eLit "4") [] []], .mk .block [] [.mk (.sExpr false) [] [.mk .eRange [] [.mk (.eLit "2") [] [], .mk (.eLit "10") [] []]]], .mk (.eBlock none) [] [.mk (.sExpr false) [] [.mk (.eMethodCall "map") [] [.mk .eParen [] [.mk .eRange [] [.mk (.eLit "11") [] [], .mk (.eLit "20") [] []]], .mk (.eClosure "x") [] [.mk (.eBinary "-") [] [.mk (.ePath false (.ofIdents ["x"])) [] [], .mk (.eLit "1") [] []]]]]]]]]]], .mk (.eBlock none) [] [.mk (.sExpr false) [] [.mk (.eMethodCall "map") [] [.mk .eParen [] [.mk .eRange [] [.mk (.eLit "0") [] [], .mk (.eLit "2") [] []]], .mk (.eClosure "x") [] [.mk (.eBinary "+") [] [.mk (.ePath false (.ofIdents ["x"])) [] [], .mk (.eLit "1") [] []]]]]]]]]]]

example : passes false ["foo", "marker_a", "bar", "marker"] 1 [.ident "Iterator"] (.stmt auto_enum_if_in_block_if) = true := by decide +kernel

/-- `tests/auto_enum.rs:715` -/
def auto_enum_match_in_let_match : Node :=
  .mk (.iFn "match_in_let_match" (some (.mk (.implTrait [some ⟨false, [⟨"Iterator", (some "Item = i32")⟩]⟩]) [.mk (.path false (.ofIdents ["i32"]) none) []]))) [] [.mk .block [] [.mk (.sExpr false) [] [.mk .eMatch [] [.mk (.ePath false (.ofIdents ["x"])) [] [], .mk (.arm "0") [] [.mk .eRange [] [.mk (.eLit "1") [] [], .mk (.eLit "8") [] []]], .mk (.arm "3") [] [.mk (.eBlock none) [] [.mk (.sLocal (.plain "x")) [⟨(.ofIdents ["nested"]), .path⟩] [.mk .eMatch [] [.mk (.ePath false (.ofIdents ["x"])) [] [], .mk (.arm "4 ..= 10") [] [.mk .eRange [] [.mk (.eLit "2") [] [], .mk (.eLit "10") [] []]], .mk (.arm "_") [] [.mk (.eMethodCall "map") [] [.mk .eParen [] [.mk .eRange [] [.mk (.eLit "11") [] [], .mk (.eLit "20") [] []]], .mk (.eClosure "x") [] [.mk (.eBinary "-") [] [.mk (.ePath false (.ofIdents ["x"])) [] [], .mk (.eLit "1") [] []]]]]]], .mk (.sExpr false) [] [.mk (.ePath false (.ofIdents ["x"])) [] []]]], .mk (.arm "_") [] [.mk (.eMethodCall "map") [] [.mk .eParen [] [.mk .eRange [] [.mk (.eLit "0") [] [], .mk (.eLit "2") [] []]], .mk (.eClosure "x") [] [.mk (.eBinary "+") [] [.mk (.ePath false (.ofIdents ["x"])) [] [], .mk (.eLit "1") [] []]]]]]]]]

example : passes false ["foo", "marker_a", "bar", "marker"] 1 [.ident "Iterator"] (.stmt auto_enum_match_in_let_match) = true := by decide +kernel

/-- `tests/auto_enum.rs:734` -/
def auto_enum_match_in_let_if : Node :=
  .mk (.iFn "match_in_let_if" (some (.mk (.implTrait [some ⟨false, [⟨"Iterator", (some "Item = i32")⟩]⟩]) [.mk (.path false (.ofIdents ["i32"]) none) []]))) [] [.mk .block [] [.mk (.sExpr false) [] [.mk .eMatch [] [.mk (.ePath false (.ofIdents ["x"])) [] [], .mk (.arm "0") [] [.mk .eRange [] [.mk (.eLit "1") [] [], .mk (.eLit "8") [] []]], .mk (.arm "3") [] [.mk (.eBlock none) [] [.mk (.sLocal (.plain "x")) [⟨(.ofIdents ["nested"]), .path⟩] [.mk .eIf [] [.mk (.eBinary ">") [] [.mk (.ePath false (.ofIdents ["x"])) [] [], .mk (.eLit "4") [] []], .mk .block [] [.mk (.sExpr false) [] [.mk .eRange [] [.mk (.eLit "2") [] [], .mk (.eLit "10") [] []]]], .mk (.eBlock none) [] [.mk (.sExpr false) [] [.mk (.eMethodCall "map") [] [.mk .eParen [] [.mk .eRange [] [.mk (.eLit "11") [] [], .mk (.eLit "20") [] []]], .mk (.eClosure "x") [] [.mk (.eBinary "-") [] [.mk (.ePath false (.ofIdents ["x"])) [] [], .mk (.eLit "1") [] []]]]]]]], .mk (.sExpr false) [] [.mk (.ePath false (.ofIdents ["x"])) [] []]]], .mk (.arm "_") [] [.mk (.eMethodCall "map") [] [.mk .eParen [] [.mk .eRange [] [.mk (.eLit "0") [] [], .mk (.eLit "2") [] []]], .mk (.eClosure "x") [] [.mk (.eBinary "+") [] [.mk (.ePath false (.ofIdents ["x"])) [] [], .mk (.eLit "1") [] []]]]]]]]]

example : passes false ["foo", "marker_a", "bar", "marker"] 1 [.ident "Iterator"] (.stmt auto_enum_match_in_let_if) = true := by decide +kernel

/-- `tests/auto_enum.rs:750` -/
def auto_enum_match_in_let_if_2 : Node :=
  .mk (.iFn "match_in_let_if_2" (some (.mk (.implTrait [some ⟨false, [⟨"Iterator", (some "Item = i32")⟩]⟩]) [.mk (.path false (.ofIdents ["i32"]) none) []]))) [] [.mk .block [] [.mk (.sExpr false) [] [.mk .eMatch [] [.mk (.ePath false (.ofIdents ["x"])) [] [], .mk (.arm "0") [] [.mk .eRange [] [.mk (.eLit "1") [] [], .mk (.eLit "8") [] []]], .mk (.arm "3") [] [.mk (.eBlock none) [] [.mk (.sLocal (.plain "x")) [⟨(.ofIdents ["nested"]), .path⟩] [.mk .eIf [] [.mk (.eBinary ">") [] [.mk (.ePath false (.ofIdents ["x"])) [] [], .mk (.eLit "4") [] []], .mk .block [] [.mk (.sExpr false) [] [.mk .eRange [] [.mk (.eLit "2") [] [], .mk (.eLit "10") [] []]]], .mk (.eBlock none) [] [.mk (.sLocal (.plain "x")) [⟨(.ofIdents ["nested"]), .path⟩] [.mk .eMatch [] [.mk (.ePath false (.ofIdents ["x"])) [] [], .mk (.arm "4 ..= 10") [] [.mk .eRange [] [.mk (.eLit "2") [] [], .mk (.eLit "10") [] []]], .mk (.arm "_") [] [.mk (.eMethodCall "map") [] [.mk .eParen [] [.mk .eRange [] [.mk (.eLit "11") [] [], .mk (.eLit "20") [] []]], .mk (.eClosure "x") [] [.mk (.eBinary "-") [] [.mk (.ePath false (.ofIdents ["x"])) [] [], .mk (.eLit "1") [] []]]]]]], .mk (.sExpr false) [] [.mk (.ePath false (.ofIdents ["x"])) [] []]]]], .mk (.sExpr false) [] [.mk (.ePath false (.ofIdents ["x"])) [] []]]], .mk (.arm "_") [] [.mk (.eMethodCall "map") [] [.mk .eParen [] [.mk .eRange [] [.mk (.eLit "0") [] [], .mk (.eLit "2") [] []]], .mk (.eClosure "x") [] [.mk (.eBinary "+") [] [.mk (.ePath false (.ofIdents ["x"])) [] [], .mk (.eLit "1") [] []]]]]]]]]

example : passes false ["foo", "marker_a", "bar", "marker"] 1 [.ident "Iterator"] (.stmt auto_enum_match_in_let_if_2) = true := by decide +kernel

/-- `tests/auto_enum.rs:772` -/
def auto_enum_if_in_let_if : Node :=
  .mk (.iFn "if_in_let_if" (some (.mk (.implTrait [some ⟨false, [⟨"Iterator", (some "Item = i32")⟩]⟩]) [.mk (.path false (.ofIdents ["i32"]) none) []]))) [] [.mk .block [] [.mk (.sExpr false) [] [.mk .eIf [] [.mk (.eBinary "==") [] [.mk (.ePath false (.ofIdents ["x"])) [] [], .mk (.eLit "0") [] []], .mk .block [] [.mk (.sExpr false) [] [.mk .eRange [] [.mk (.eLit "1") [] [], .mk (.eLit "8") [] []]]], .mk .eIf [] [.mk (.eBinary ">") [] [.mk (.ePath false (.ofIdents ["x"])) [] [], .mk (.eLit "3") [] []], .mk .block [] [.mk (.sLocal (.plain "x")) [⟨(.ofIdents ["nested"]), .path⟩] [.mk .eIf [] [.mk (.eBinary ">") [] [.mk (.ePath false (.ofIdents ["x"])) [] [], .mk (.eLit "4") [] []], .mk .block [] [.mk (.sExpr false) [] [.mk .eRange [] [.mk (.eLit "2") [] [], .mk (.eLit "10") [] []]]], .mk (.eBlock none) [] [.mk (.sExpr false) [] [.mk (.eMethodCall "map") [] [.mk .eParen [] [.mk .eRange [] [.mk (.eLit "11") [] [], .mk (.eLit "20") [] []]], .mk (.eClosure "x") [] [.mk (.eBinary "-") [] [.mk (.ePath false (.ofIdents ["x"])) [] [], .mk (.eLit "1") [] []]]]]]]], .mk (.sExpr false) [] [.mk (.ePath false (.ofIdents ["x"])) [] []]], .mk (.eBlock none) [] [.mk (.sExpr false) [] [.mk (.eMethodCall "map") [] [.mk .eParen [] [.mk .eRange [] [.mk (.eLit "0") [] [], .mk (.eLit "2") [] []]], .mk (.eClosure "x") [] [.mk (.eBinary "+") [] [.mk (.ePath false (.ofIdents ["x"])) [] [], .mk (.eLit "1") [] []]]]]]]]]]]

example : passes false ["foo", "marker_a", "bar", "marker"] 1 [.ident "Iterator"] (.stmt auto_enum_if_in_let_if) = true := by decide +kernel

/-- `tests/auto_enum.rs:788` -/
def auto_enum_if_in_let_if_nested : Node :=
  .mk (.iFn "if_in_let_if_nested" (some (.mk (.implTrait [some ⟨false, [⟨"Iterator", (some "Item = i32")⟩]⟩]) [.mk (.path false (.ofIdents ["i32"]) none) []]))) [] [.mk .block [] [.mk (.sExpr false) [] [.mk .eIf [] [.mk (.eBinary "==") [] [.mk (.ePath false (.ofIdents ["x"])) [] [], .mk (.eLit "0") [] []], .mk .block [] [.mk (.sExpr false) [] [.mk .eRange [] [.mk (.eLit "1") [] [], .mk (.eLit "8") [] []]]], .mk .eIf [] [.mk (.eBinary ">") [] [.mk (.ePath false (.ofIdents ["x"])) [] [], .mk (.eLit "3") [] []], .mk .block [] [.mk (.sLocal (.plain "x")) [⟨(.ofIdents ["nested"]), .path⟩] [.mk .eIf [] [.mk (.eBinary ">") [] [.mk (.ePath false (.ofIdents ["x"])) [] [], .mk (.eLit "4") [] []], .mk .block [] [.mk (.sLocal (.plain "x")) [⟨(.ofIdents ["nested"]), .path⟩] [.mk .eIf [] [.mk (.eBinary ">") [] [.mk (.ePath false (.ofIdents ["x"])) [] [], .mk (.eLit "4") [] []], .mk .block [] [.mk (.sExpr false) [] [.mk (.eMethodCall "flat_map") [] [.mk .eParen [] [.mk .eRange [] [.mk (.eLit "2") [] [], .mk (.eLit "10") [] []]], .mk (.eClosure "x") [] [.mk .eRange [] [.mk (.eLit "1") [] [], .mk (.ePath false (.ofIdents ["x"])) [] []]]]]], .mk (.eBlock none) [] [.mk (.sExpr false) [] [.mk .eCall [] [.mk (.ePath false (.ofIdents ["core", "iter", "empty"])) [] []]]]]], .mk (.sExpr false) [] [.mk (.ePath false (.ofIdents ["x"])) [] []]], .mk (.eBlock none) [] [.mk (.sExpr false) [] [.mk (.eMethodCall "map") [] [.mk .eParen [] [.mk .eRange [] [.mk (.eLit "11") [] [], .mk (.eLit "20") [] []]], .mk (.eClosure "x") [] [.mk (.eBinary "-") [] [.mk (.ePath false (.ofIdents ["x"])) [] [], .mk (.eLit "1") [] []]]]]]]], .mk (.sExpr false) [] [.mk (.ePath false (.ofIdents ["x"])) [] []]], .mk (.eBlock none) [] [.mk (.sExpr false) [] [.mk (.eMethodCall "map") [] [.mk .eParen [] [.mk .eRange [] [.mk (.eLit "0") [] [], .mk (.eLit "2") [] []]], .mk (.eClosure "x") [] [.mk (.eBinary "+") [] [.mk (.ePath false (.ofIdents ["x"])) [] [], .mk (.eLit "1") [] []]]]]]]]]]]

example : passes false ["foo", "marker_a", "bar", "marker"] 1 [.ident "Iterator"] (.stmt auto_enum_if_in_let_if_nested) = true := by decide +kernel

/-- `tests/auto_enum.rs:807` -/
def auto_enum_if_in_let_if_nested_nested : Node :=
  .mk (.iFn "if_in_let_if_nested_nested" (some (.mk (.implTrait [some ⟨false, [⟨"Iterator", (some "Item = i32")⟩]⟩]) [.mk (.path false (.ofIdents ["i32"]) none) []]))) [] [.mk .block [] [.mk (.sExpr false) [] [.mk .eIf [] [.mk (.eBinary "==") [] [.mk (.ePath false (.ofIdents ["x"])) [] [], .mk (.eLit "0") [] []], .mk .block [] [.mk (.sExpr false) [] [.mk .eRange [] [.mk (.eLit "1") [] [], .mk (.eLit "8") [] []]]], .mk .eIf [] [.mk (.eBinary "!=") [] [.mk (.ePath false (.ofIdents ["x"])) [] [], .mk (.eLit "1") [] []], .mk .block [] [.mk (.sLocal (.plain "x")) [⟨(.ofIdents ["nested"]), .path⟩] [.mk .eIf [] [.mk (.eBinary ">") [] [.mk (.ePath false (.ofIdents ["x"])) [] [], .mk (.eLit "5") [] []], .mk .block [] [.mk (.sLocal (.plain "x")) [⟨(.ofIdents ["nested"]), .path⟩] [.mk .eIf [] [.mk (.eBinary ">") [] [.mk (.ePath false (.ofIdents ["x"])) [] [], .mk (.eLit "10") [] []], .mk .block [] [.mk (.sLocal (.plain "x")) [⟨(.ofIdents ["nested"]), .path⟩] [.mk .eIf [] [.mk (.eBinary ">") [] [.mk (.ePath false (.ofIdents ["x"])) [] [], .mk (.eLit "11") [] []], .mk .block [] [.mk (.sExpr false) [] [.mk (.eMethodCall "flat_map") [] [.mk .eParen [] [.mk .eRange [] [.mk (.eLit "2") [] [], .mk (.eLit "10") [] []]], .mk (.eClosure "x") [] [.mk .eRange [] [.mk (.eLit "1") [] [], .mk (.ePath false (.ofIdents ["x"])) [] []]]]]], .mk (.eBlock none) [] [.mk (.sExpr false) [] [.mk (.eMethodCall "map") [] [.mk .eParen [] [.mk .eRange [] [.mk (.eLit "11") [] [], .mk (.eLit "20") [] []]], .mk (.eClosure "x") [] [.mk (.eBinary "-") [] [.mk (.ePath false (.ofIdents ["x"])) [] [], .mk (.eLit "1") [] []]]]]]]], .mk (.sExpr false) [] [.mk (.ePath false (.ofIdents ["x"])) [] []]], .mk (.eBlock none) [] [.mk (.sLocal (.plain "x")) [⟨(.ofIdents ["nested"]), .path⟩] [.mk .eIf [] [.mk (.eBinary ">") [] [.mk (.ePath false (.ofIdents ["x"])) [] [], .mk (.eLit "9") [] []], .mk .block [] [.mk (.sExpr false) [] [.mk (.eMethodCall "flat_map") [] [.mk .eParen [] [.mk .eRange [] [.mk (.eLit "2") [] [], .mk (.eLit "10") [] []]], .mk (.eClosure "x") [] [.mk .eRange [] [.mk (.eLit "1") [] [], .mk (.ePath false (.ofIdents ["x"])) [] []]]]]], .mk (.eBlock none) [] [.mk (.sLocal (.plain "x")) [⟨(.ofIdents ["nested"]), .path⟩] [.mk .eIf [] [.mk (.eBinary ">") [] [.mk (.ePath false (.ofIdents ["x"])) [] [], .mk (.eLit "6") [] []], .mk .block [] [.mk (.sLocal (.plain "x")) [⟨(.ofIdents ["nested"]), .path⟩] [.mk .eIf [] [.mk (.eBinary ">") [] [.mk (.ePath false (.ofIdents ["x"])) [] [], .mk (.eLit "7") [] []], .mk .block [] [.mk (.sExpr false) [] [.mk (.eMethodCall "flat_map") [] [.mk .eParen [] [.mk .eRange [] [.mk (.eLit "2") [] [], .mk (.eLit "10") [] []]], .mk (.eClosure "x") [] [.mk .eRange [] [.mk (.eLit "1") [] [], .mk (.ePath false (.ofIdents ["x"])) [] []]]]]], .mk (.eBlock none) [] [.mk (.sExpr false) [] [.mk (.eMethodCall "map") [] [.mk .eParen [] [.mk .eRange [] [.mk (.eLit "11") [] [], .mk (.eLit "20") [] []]], .mk (.eClosure "x") [] [.mk (.eBinary "-") [] [.mk (.ePath false (.ofIdents ["x"])) [] [], .mk (.eLit "1") [] []]]]]]]], .mk (.sExpr false) [] [.mk (.ePath false (.ofIdents ["x"])) [] []]], .mk (.eBlock none) [] [.mk (.sExpr false) [] [.mk (.eMethodCall "map") [] [.mk .eParen [] [.mk .eRange [] [.mk (.eLit "11") [] [], .mk (.eLit "20") [] []]], .mk (.eClosure "x") [] [.mk (.eBinary "-") [] [.mk (.ePath false (.ofIdents ["x"])) [] [], .mk (.eLit "1") [] []]]]]]]], .mk (.sExpr false) [] [.mk (.ePath false (.ofIdents ["x"])) [] []]]]], .mk (.sExpr false) [] [.mk (.ePath false (.ofIdents ["x"])) [] []]]]], .mk (.sExpr false) [] [.mk (.ePath false (.ofIdents ["x"])) [] []]], .mk (.eBlock none) [] [.mk (.sExpr false) [] [.mk (.eMethodCall "map") [] [.mk .eParen [] [.mk .eRange [] [.mk (.eLit "11") [] [], .mk (.eLit "20") [] []]], .mk (.eClosure "x") [] [.mk (.eBinary "-") [] [.mk (.ePath false (.ofIdents ["x"])) [] [], .mk (.eLit "1") [] []]]]]]]], .mk (.sExpr false) [] [.mk (.ePath false (.ofIdents ["x"])) [] []]], .mk (.eBlock none) [] [.mk (.sExpr false) [] [.mk (.eMethodCall "map") [] [.mk .eParen [] [.mk .eRange [] [.mk (.eLit "0") [] [], .mk (.eLit "2") [] []]], .mk (.eClosure "x") [] [.mk (.eBinary "+") [] [.mk (.ePath false (.ofIdents ["x"])) [] [], .mk (.eLit "1") [] []]]]]]]]]]]

example : passes false ["foo", "marker_a", "bar", "marker"] 1 [.ident "Iterator"] (.stmt auto_enum_if_in_let_if_nested_nested) = true := by decide +kernel

/-- "1 enum with 9 variants is generated" -/
example : sizes [.ident "Iterator"] (.stmt auto_enum_if_in_let_if_nested_nested) = [9] := by decide +kernel

/-- `tests/auto_enum.rs:852` -/
def auto_enum_if_in_let_if_2 : Node :=
  .mk (.iFn "if_in_let_if_2" (some (.mk (.implTrait [some ⟨false, [⟨"Iterator", (some "Item = i32")⟩]⟩]) [.mk (.path false (.ofIdents ["i32"]) none) []]))) [] [.mk .block [] [.mk (.sExpr false) [] [.mk .eIf [] [.mk (.eBinary "==") [] [.mk (.ePath false (.ofIdents ["x"])) [] [], .mk (.eLit "0") [] []], .mk .block [] [.mk (.sExpr false) [] [.mk .eRange [] [.mk (.eLit "1") [] [], .mk (.eLit "8") [] []]]], .mk .eIf [] [.mk (.eBinary ">") [] [.mk (.ePath false (.ofIdents ["x"])) [] [], .mk (.eLit "3") [] []], .mk .block [] [.mk (.sLocal (.plain "y")) [⟨(.ofIdents ["nested"]), .path⟩] [.mk .eIf [] [.mk (.eBinary ">") [] [.mk (.ePath false (.ofIdents ["x"])) [] [], .mk (.eLit "4") [] []], .mk .block [] [.mk (.sExpr false) [] [.mk .eRange [] [.mk (.eLit "2") [] [], .mk (.eLit "10") [] []]]], .mk (.eBlock none) [] [.mk (.sExpr false) [] [.mk (.eMethodCall "map") [] [.mk .eParen [] [.mk .eRange [] [.mk (.eLit "11") [] [], .mk (.eLit "20") [] []]], .mk (.eClosure "x") [] [.mk (.eBinary "-") [] [.mk (.ePath false (.ofIdents ["x"])) [] [], .mk (.eLit "1") [] []]]]]]]], .mk (.sLocal (.plain "z")) [⟨(.ofIdents ["nested"]), .path⟩] [.mk .eIf [] [.mk (.eBinary "<") [] [.mk (.ePath false (.ofIdents ["x"])) [] [], .mk (.eLit "4") [] []], .mk .block [] [.mk (.sExpr false) [] [.mk .eRange [] [.mk (.eLit "2") [] [], .mk (.eLit "10") [] []]]], .mk (.eBlock none) [] [.mk (.sExpr false) [] [.mk (.eMethodCall "map") [] [.mk .eParen [] [.mk .eRange [] [.mk (.eLit "11") [] [], .mk (.eLit "20") [] []]], .mk (.eClosure "x") [] [.mk (.eBinary "-") [] [.mk (.ePath false (.ofIdents ["x"])) [] [], .mk (.eLit "1") [] []]]]]]]], .mk (.sExpr false) [] [.mk .eIf [] [.mk (.eBinary ">") [] [.mk (.ePath false (.ofIdents ["x"])) [] [], .mk (.eLit "5") [] []], .mk .block [] [.mk (.sExpr false) [] [.mk (.ePath false (.ofIdents ["y"])) [] []]], .mk (.eBlock none) [] [.mk (.sExpr false) [] [.mk (.ePath false (.ofIdents ["z"])) [] []]]]]], .mk (.eBlock none) [] [.mk (.sExpr false) [] [.mk (.eMethodCall "map") [] [.mk .eParen [] [.mk .eRange [] [.mk (.eLit "0") [] [], .mk (.eLit "2") [] []]], .mk (.eClosure "x") [] [.mk (.eBinary "+") [] [.mk (.ePath false (.ofIdents ["x"])) [] [], .mk (.eLit "1") [] []]]]]]]]]]]

example : passes false ["foo", "marker_a", "bar", "marker"] 1 [.ident "Iterator"] (.stmt auto_enum_if_in_let_if_2) = true := by decide +kernel

/-- `tests/auto_enum.rs:869` -/
def auto_enum_match_in_let_if_nop : Node :=
  .mk (.iFn "match_in_let_if_nop" (some (.mk (.implTrait [some ⟨false, [⟨"Iterator", (some "Item = i32")⟩]⟩]) [.mk (.path false (.ofIdents ["i32"]) none) []]))) [] [.mk .block [] [.mk (.sExpr false) [] [.mk .eMatch [] [.mk (.ePath false (.ofIdents ["x"])) [] [], .mk (.arm "0") [] [.mk .eRange [] [.mk (.eLit "1") [] [], .mk (.eLit "8") [] []]], .mk (.arm "3") [] [.mk (.eBlock none) [] [.mk (.sLocal (.plain "x")) [⟨(.ofIdents ["nested"]), .path⟩] [.mk .eIf [] [.mk (.eBinary ">") [] [.mk (.ePath false (.ofIdents ["x"])) [] [], .mk (.eLit "4") [] []], .mk .block [] [.mk (.sExpr false) [] [.mk .eRange [] [.mk (.eLit "2") [] [], .mk (.eLit "10") [] []]]], .mk (.eBlock none) [] [.mk (.sExpr false) [] [.mk (.eMethodCall "map") [] [.mk .eParen [] [.mk .eRange [] [.mk (.eLit "11") [] [], .mk (.eLit "20") [] []]], .mk (.eClosure "x") [] [.mk (.eBinary "-") [] [.mk (.ePath false (.ofIdents ["x"])) [] [], .mk (.eLit "1") [] []]]]]]]], .mk (.sLocal (.plain "_y")) [⟨(.ofIdents ["nested"]), .path⟩] [.mk .eRange [] [.mk (.eLit "111") [] [], .mk (.eLit "120") [] []]], .mk (.sExpr false) [] [.mk (.ePath false (.ofIdents ["x"])) [] []]]], .mk (.arm "_") [] [.mk (.eMethodCall "map") [] [.mk .eParen [] [.mk .eRange [] [.mk (.eLit "0") [] [], .mk (.eLit "2") [] []]], .mk (.eClosure "x") [] [.mk (.eBinary "+") [] [.mk (.ePath false (.ofIdents ["x"])) [] [], .mk (.eLit "1") [] []]]]]]]]]

example : passes false ["foo", "marker_a", "bar", "marker"] 1 [.ident "Iterator"] (.stmt auto_enum_match_in_let_if_nop) = true := by decide +kernel

/-- `tests/auto_enum.rs:884` -/
def auto_enum_if_in_let_if_nop : Node :=
  .mk (.iFn "if_in_let_if_nop" (some (.mk (.implTrait [some ⟨false, [⟨"Iterator", (some "Item = i32")⟩]⟩]) [.mk (.path false (.ofIdents ["i32"]) none) []]))) [] [.mk .block [] [.mk (.sExpr false) [] [.mk .eIf [] [.mk (.eBinary "==") [] [.mk (.ePath false (.ofIdents ["x"])) [] [], .mk (.eLit "0") [] []], .mk .block [] [.mk (.sExpr false) [] [.mk .eRange [] [.mk (.eLit "1") [] [], .mk (.eLit "8") [] []]]], .mk .eIf [] [.mk (.eBinary ">") [] [.mk (.ePath false (.ofIdents ["x"])) [] [], .mk (.eLit "3") [] []], .mk .block [] [.mk (.sLocal (.plain "x")) [⟨(.ofIdents ["nested"]), .path⟩] [.mk .eIf [] [.mk (.eBinary ">") [] [.mk (.ePath false (.ofIdents ["x"])) [] [], .mk (.eLit "4") [] []], .mk .block [] [.mk (.sExpr false) [] [.mk .eRange [] [.mk (.eLit "2") [] [], .mk (.eLit "10") [] []]]], .mk (.eBlock none) [] [.mk (.sExpr false) [] [.mk (.eMethodCall "map") [] [.mk .eParen [] [.mk .eRange [] [.mk (.eLit "11") [] [], .mk (.eLit "20") [] []]], .mk (.eClosure "x") [] [.mk (.eBinary "-") [] [.mk (.ePath false (.ofIdents ["x"])) [] [], .mk (.eLit "1") [] []]]]]]]], .mk (.sExpr false) [] [.mk (.ePath false (.ofIdents ["x"])) [⟨(.ofIdents ["nested"]), .path⟩] []]], .mk (.eBlock none) [] [.mk (.sExpr false) [] [.mk (.eMethodCall "map") [] [.mk .eParen [] [.mk .eRange [] [.mk (.eLit "0") [] [], .mk (.eLit "2") [] []]], .mk (.eClosure "x") [] [.mk (.eBinary "+") [] [.mk (.ePath false (.ofIdents ["x"])) [] [], .mk (.eLit "1") [] []]]]]]]]]]]

example : passes false ["foo", "marker_a", "bar", "marker"] 1 [.ident "Iterator"] (.stmt auto_enum_if_in_let_if_nop) = true := by decide +kernel

/-- `tests/auto_enum.rs:898` -/
def auto_enum_match_nop : Node :=
  .mk (.iFn "match_nop" (some (.mk (.implTrait [some ⟨false, [⟨"Iterator", (some "Item = i32")⟩]⟩]) [.mk (.path false (.ofIdents ["i32"]) none) []]))) [] [.mk .block [] [.mk (.sExpr false) [] [.mk .eMatch [] [.mk (.ePath false (.ofIdents ["x"])) [] [], .mk (.arm "0") [] [.mk .eRange [] [.mk (.eLit "1") [] [], .mk (.eLit "8") [] []]], .mk (.arm "3") [] [.mk .eRange [] [.mk (.eLit "2") [] [], .mk (.eLit "10") [] []]], .mk (.arm "_") [] [.mk (.eMethodCall "map") [] [.mk .eParen [] [.mk .eRange [] [.mk (.eLit "0") [] [], .mk (.eLit "2") [] []]], .mk (.eClosure "x") [] [.mk (.eBinary "+") [] [.mk (.ePath false (.ofIdents ["x"])) [] [], .mk (.eLit "1") [] []]]]]]]]]

example : passes false ["foo", "marker_a", "bar", "marker"] 1 [.ident "Iterator"] (.stmt auto_enum_match_nop) = true := by decide +kernel

/-- `tests/auto_enum.rs:907` -/
def auto_enum_if_nop : Node :=
  .mk (.iFn "if_nop" (some (.mk (.implTrait [some ⟨false, [⟨"Iterator", (some "Item = i32")⟩]⟩]) [.mk (.path false (.ofIdents ["i32"]) none) []]))) [] [.mk .block [] [.mk (.sExpr false) [] [.mk .eIf [] [.mk (.eBinary "==") [] [.mk (.ePath false (.ofIdents ["x"])) [] [], .mk (.eLit "0") [] []], .mk .block [] [.mk (.sExpr false) [] [.mk .eRange [] [.mk (.eLit "1") [] [], .mk (.eLit "8") [] []]]], .mk .eIf [] [.mk (.eBinary ">") [] [.mk (.ePath false (.ofIdents ["x"])) [] [], .mk (.eLit "3") [] []], .mk .block [] [.mk (.sExpr false) [] [.mk .eRange [] [.mk (.eLit "2") [] [], .mk (.eLit "10") [] []]]], .mk (.eBlock none) [] [.mk (.sExpr false) [] [.mk (.eMethodCall "map") [] [.mk .eParen [] [.mk .eRange [] [.mk (.eLit "0") [] [], .mk (.eLit "2") [] []]], .mk (.eClosure "x") [] [.mk (.eBinary "+") [] [.mk (.ePath false (.ofIdents ["x"])) [] [], .mk (.eLit "1") [] []]]]]]]]]]]

example : passes false ["foo", "marker_a", "bar", "marker"] 1 [.ident "Iterator"] (.stmt auto_enum_if_nop) = true := by decide +kernel

/-- `tests/auto_enum.rs:918` -/
def auto_enum_no_return_918 : Node :=
  .mk (.iFn "no_return" (some (.mk (.implTrait [some ⟨false, [⟨"Iterator", (some "Item = i32")⟩]⟩]) [.mk (.path false (.ofIdents ["i32"]) none) []]))) [] [.mk .block [] [.mk (.sExpr false) [] [.mk .eMatch [] [.mk (.ePath false (.ofIdents ["x"])) [] [], .mk (.arm "0") [] [.mk .eRange [] [.mk (.eLit "1") [] [], .mk (.eLit "8") [] []]], .mk (.arm "3") [⟨(.ofIdents ["nested"]), .path⟩] [.mk (.eMacro (.ofIdents ["panic"]) "") [] []], .mk (.arm "_") [] [.mk (.eMethodCall "map") [] [.mk .eParen [] [.mk .eRange [] [.mk (.eLit "0") [] [], .mk (.eLit "2") [] []]], .mk (.eClosure "x") [] [.mk (.eBinary "+") [] [.mk (.ePath false (.ofIdents ["x"])) [] [], .mk (.eLit "1") [] []]]]]]]]]

example : passes false ["foo", "marker_a", "bar", "marker"] 1 [.ident "Iterator"] (.stmt auto_enum_no_return_918) = true := by decide +kernel

/-! ## `tests/run-pass/auto_enum/unstable.rs` -/

/-- `tests/run-pass/auto_enum/unstable.rs:15` -/
def unstable_let_15 : Node :=
  .mk (.sLocal (.plain "iter")) [] [.mk .eMatch [] [.mk (.ePath false (.ofIdents ["i"])) [] [], .mk (.arm "0") [] [.mk .eRange [] [.mk (.eLit "1") [] [], .mk (.eLit "8") [] []]], .mk (.arm "_") [] [.mk (.eMethodCall "into_iter") [] [.mk (.eMacro (.ofIdents ["vec"]) "1 , 2 , 0") [] []]]]]

example : passes false ["foo", "marker_a", "bar", "marker"] 1 [.ident "Iterator"] (.stmt unstable_let_15) = true := by decide +kernel

/-- `tests/run-pass/auto_enum/unstable.rs:25` -/
def unstable_let_25 : Node :=
  .mk (.sLocal (.plain "iter")) [] [.mk .eIf [] [.mk (.eBinary "==") [] [.mk (.ePath false (.ofIdents ["i"])) [] [], .mk (.eLit "0") [] []], .mk .block [] [.mk (.sExpr false) [] [.mk .eRange [] [.mk (.eLit "1") [] [], .mk (.eLit "8") [] []]]], .mk .eIf [] [.mk (.eBinary ">") [] [.mk (.ePath false (.ofIdents ["i"])) [] [], .mk (.eLit "3") [] []], .mk .block [] [.mk (.sExpr false) [] [.mk .eRange [] [.mk (.eLit "1") [] [], .mk (.eLit "10") [] []]]], .mk (.eBlock none) [] [.mk (.sExpr false) [] [.mk (.eMethodCall "into_iter") [] [.mk (.eMacro (.ofIdents ["vec"]) "1 , 2 , 0") [] []]]]]]]

example : passes false ["foo", "marker_a", "bar", "marker"] 1 [.ident "Iterator"] (.stmt unstable_let_25) = true := by decide +kernel

/-- `tests/run-pass/auto_enum/unstable.rs:38` -/
def unstable_let_38 : Node :=
  .mk (.sLocal (.plain "iter")) [] [.mk .eMatch [] [.mk (.ePath false (.ofIdents ["i"])) [] [], .mk (.arm "0") [] [.mk .eRange [] [.mk (.eLit "1") [] [], .mk (.eLit "8") [] []]], .mk (.arm "5 ..= 10") [⟨(.ofIdents ["never"]), .path⟩] [.mk (.eLoop none) [] [.mk .block [] [.mk (.sMacro (.ofIdents ["panic"]) "") [] []]]], .mk (.arm "_") [] [.mk (.eMethodCall "into_iter") [] [.mk (.eMacro (.ofIdents ["vec"]) "1 , 2 , 0") [] []]]]]

example : passes false ["foo", "marker_a", "bar", "marker"] 1 [.ident "Iterator"] (.stmt unstable_let_38) = true := by decide +kernel

/-- `tests/run-pass/auto_enum/unstable.rs:50` -/
def unstable_let_50 : Node :=
  .mk (.sLocal (.plain "iter")) [] [.mk .eMatch [] [.mk (.ePath false (.ofIdents ["i"])) [] [], .mk (.arm "0") [] [.mk .eRange [] [.mk (.eLit "1") [] [], .mk (.eLit "8") [] []]], .mk (.arm "5 ..= 10") [] [.mk (.eMacro (.ofIdents ["panic"]) "") [] []], .mk (.arm "11 ..= 20") [] [.mk (.eMacro (.ofIdents ["unreachable"]) "") [] []], .mk (.arm "21 ..= 30") [] [.mk (.eBreak none) [] []], .mk (.arm "31 ..= 40") [] [.mk (.eContinue none) [] []], .mk (.arm "41 ..= 50") [] [.mk .eReturn [] []], .mk (.arm "_") [] [.mk (.eMethodCall "into_iter") [] [.mk (.eMacro (.ofIdents ["vec"]) "1 , 2 , 0") [] []]]]]

example : passes false ["foo", "marker_a", "bar", "marker"] 1 [.ident "Iterator"] (.stmt unstable_let_50) = true := by decide +kernel

/-- `tests/run-pass/auto_enum/unstable.rs:63` -/
def unstable_let_63 : Node :=
  .mk (.sLocal (.plain "iter")) [] [.mk .eIf [] [.mk (.eBinary ">") [] [.mk (.ePath false (.ofIdents ["i"])) [] [], .mk (.eLit "3") [] []], .mk .block [] [.mk (.sExpr false) [] [.mk (.eLoop none) [⟨(.ofIdents ["never"]), .path⟩] [.mk .block [] [.mk (.sMacro (.ofIdents ["panic"]) "") [] []]]]], .mk .eIf [] [.mk (.eBinary "==") [] [.mk (.ePath false (.ofIdents ["i"])) [] [], .mk (.eLit "0") [] []], .mk .block [] [.mk (.sExpr false) [] [.mk .eRange [] [.mk (.eLit "1") [] [], .mk (.eLit "8") [] []]]], .mk (.eBlock none) [] [.mk (.sExpr false) [] [.mk (.eMethodCall "into_iter") [] [.mk (.eMacro (.ofIdents ["vec"]) "1 , 2 , 0") [] []]]]]]]

example : passes false ["foo", "marker_a", "bar", "marker"] 1 [.ident "Iterator"] (.stmt unstable_let_63) = true := by decide +kernel

/-- `tests/run-pass/auto_enum/unstable.rs:114` -/
def unstable_let_114 : Node :=
  .mk (.sLocal (.plain "_y")) [] [.mk .eMatch [] [.mk (.eLit "0") [] [], .mk (.arm "0") [] [.mk .eRange [] [.mk (.eLit "2") [] [], .mk (.eLit "8") [] []]], .mk (.arm "_") [] [.mk .eRange [] [.mk (.eLit "2") [] [], .mk (.eLit "10") [] []]]]]

example : passes false ["foo", "marker_a", "bar", "marker"] 1 [.ident "Iterator", .comma, .ident "Clone"] (.stmt unstable_let_114) = true := by decide +kernel

/-- `tests/run-pass/auto_enum/unstable.rs:120` -/
def unstable_let_120 : Node :=
  .mk (.sLocal (.plain "_x")) [] [.mk .eMatch [] [.mk (.eLit "0") [] [], .mk (.arm "0") [] [.mk .eRange [] [.mk (.eLit "2") [] [], .mk (.eLit "8") [] []]], .mk (.arm "_") [] [.mk .eRange [] [.mk (.eLit "2") [] [], .mk (.eLit "10") [] []]]]]

example : passes false ["foo", "marker_a", "bar", "marker"] 1 [.ident "Iterator", .comma, .ident "Clone"] (.stmt unstable_let_120) = true := by decide +kernel

/-- `tests/run-pass/auto_enum/unstable.rs:128` -/
def unstable_let_128 : Node :=
  .mk (.sLocal (.plain "iter")) [] [.mk .eMatch [] [.mk (.ePath false (.ofIdents ["i"])) [] [], .mk (.arm "0") [] [.mk .eRange [] [.mk (.eLit "1") [] [], .mk (.eLit "8") [] []]], .mk (.arm "5 ..= 10") [⟨(.ofIdents ["never"]), .path⟩] [.mk (.eLoop none) [] [.mk .block [] [.mk (.sMacro (.ofIdents ["panic"]) "") [] []]]], .mk (.arm "_") [] [.mk .eMatch [] [.mk (.ePath false (.ofIdents ["i"])) [] [], .mk (.arm "5 ..= 10") [⟨(.ofIdents ["never"]), .path⟩] [.mk (.eLoop none) [] [.mk .block [] [.mk (.sMacro (.ofIdents ["panic"]) "") [] []]]], .mk (.arm "11 ..= 20") [⟨(.ofIdents ["never"]), .path⟩] [.mk (.eLoop none) [] [.mk .block [] [.mk (.sMacro (.ofIdents ["panic"]) "") [] []]]], .mk (.arm "_") [] [.mk (.eMethodCall "into_iter") [] [.mk (.eMacro (.ofIdents ["vec"]) "1 , 2 , 0") [] []]]]]]]

example : passes false ["foo", "marker_a", "bar", "marker"] 1 [.ident "Iterator"] (.stmt unstable_let_128) = true := by decide +kernel

/-- `tests/run-pass/auto_enum/unstable.rs:150` -/
def unstable_let_150 : Node :=
  .mk (.sLocal (.plain "iter")) [⟨(.ofIdents ["rustfmt", "skip"]), .path⟩] [.mk .eMatch [] [.mk (.ePath false (.ofIdents ["i"])) [] [], .mk (.arm "0") [] [.mk .eRange [] [.mk (.eLit "1") [] [], .mk (.eLit "8") [] []]], .mk (.arm "5 ..= 10") [⟨(.ofIdents ["never"]), .path⟩] [.mk (.eLoop none) [] [.mk .block [] [.mk (.sMacro (.ofIdents ["panic"]) "") [] []]]], .mk (.arm "1 ..= 4") [] [.mk (.eMethodCall "into_iter") [] [.mk (.eMacro (.ofIdents ["vec"]) "1 , 2 , 0") [] []]], .mk (.arm "_") [] [.mk (.eBlock none) [] [.mk (.sExpr false) [] [.mk .eMatch [] [.mk (.ePath false (.ofIdents ["i"])) [] [], .mk (.arm "5 ..= 10") [⟨(.ofIdents ["never"]), .path⟩] [.mk (.eLoop none) [] [.mk .block [] [.mk (.sMacro (.ofIdents ["panic"]) "") [] []]]], .mk (.arm "11 ..= 20") [⟨(.ofIdents ["never"]), .path⟩] [.mk (.eLoop none) [] [.mk .block [] [.mk (.sMacro (.ofIdents ["panic"]) "") [] []]]], .mk (.arm "_") [] [.mk (.eMacro (.ofIdents ["panic"]) "") [] []]]]]]]]

example : passes false ["foo", "marker_a", "bar", "marker"] 1 [.ident "Iterator"] (.stmt unstable_let_150) = true := by decide +kernel

/-- `tests/run-pass/auto_enum/unstable.rs:81` -/
def unstable_expr_81 : Node :=
  .mk .eMatch [] [.mk (.ePath false (.ofIdents ["x"])) [] [], .mk (.arm "0") [] [.mk .eRange [] [.mk (.eLit "2") [] [], .mk (.eLit "8") [] []]], .mk (.arm "_") [] [.mk (.eBinary "<") [] [.mk (.ePath false (.ofIdents ["x"])) [] [], .mk (.eLit "2") [] []], .mk (.eMethodCall "into_iter") [] [.mk (.eMacro (.ofIdents ["vec"]) "2 , 0") [] []]], .mk (.arm "_") [] [.mk .eRange [] [.mk (.eLit "2") [] [], .mk (.eLit "10") [] []]]]

example : passes false ["foo", "marker_a", "bar", "marker"] 1 [.ident "Iterator", .comma, .ident "Clone"] (.expr unstable_expr_81) = true := by decide +kernel

/-- `tests/run-pass/auto_enum/unstable.rs:109` -/
def unstable_fn_traits1 : Node :=
  .mk (.iFn "fn_traits1" (some (.mk (.implTrait [some ⟨false, [⟨"Fn", (some "(i32)")⟩]⟩]) [.mk (.path false (.ofIdents ["i32"]) none) [], .mk (.path false (.ofIdents ["i32"]) none) []]))) [] [.mk .block [] [.mk (.sExpr false) [] [.mk .eIf [] [.mk (.ePath false (.ofIdents ["option"])) [] [], .mk .block [] [.mk (.sExpr false) [] [.mk (.eClosure "x") [] [.mk (.eBinary "+") [] [.mk (.ePath false (.ofIdents ["x"])) [] [], .mk (.eLit "1") [] []]]]], .mk (.eBlock none) [] [.mk (.sExpr false) [] [.mk (.eClosure "y") [] [.mk (.eBinary "-") [] [.mk (.ePath false (.ofIdents ["y"])) [] [], .mk (.eLit "1") [] []]]]]]]]]

example : passes false ["foo", "marker_a", "bar", "marker"] 1 [.ident "Fn"] (.stmt unstable_fn_traits1) = true := by decide +kernel

/-- `tests/run-pass/auto_enum/unstable.rs:178` -/
def unstable_expr_178 : Node :=
  .mk (.eMethodCall "flat_map") [] [.mk (.eMethodCall "map") [] [.mk .eParen [] [.mk .eRange [] [.mk (.eLit "0") [] [], .mk (.eCast "i32") [] [.mk (.ePath false (.ofIdents ["x"])) [] []]]], .mk (.eClosure "x") [] [.mk (.eBinary "+") [] [.mk (.ePath false (.ofIdents ["x"])) [] [], .mk (.eLit "1") [] []]]], .mk (.eClosure "x") [] [.mk .eIf [] [.mk (.eBinary ">") [] [.mk (.ePath false (.ofIdents ["x"])) [] [], .mk (.eLit "10") [] []], .mk .block [] [.mk (.sExpr false) [] [.mk (.eMacro (.ofIdents ["marker"]) "0 .. x") [] [.mk .eRange [] [.mk (.eLit "0") [] [], .mk (.ePath false (.ofIdents ["x"])) [] []]]]], .mk (.eBlock none) [] [.mk (.sExpr false) [] [.mk (.eMacro (.ofIdents ["marker"]) "- 100 ..= 0") [] [.mk .eRange [] [.mk (.eUnary "-") [] [.mk (.eLit "100") [] []], .mk (.eLit "0") [] []]]]]]]]

example : passes false ["foo", "marker_a", "bar", "marker"] 1 [.ident "Iterator", .comma, .ident "Clone"] (.expr unstable_expr_178) = true := by decide +kernel

/-- `tests/run-pass/auto_enum/unstable.rs:189` -/
def unstable_expr_189 : Node :=
  .mk (.sExpr true) [] [.mk .eMatch [] [.mk (.ePath false (.ofIdents ["x"])) [] [], .mk (.arm "0") [] [.mk .eAssign [] [.mk (.ePath false (.ofIdents ["a"])) [] [], .mk (.eMacro (.ofIdents ["marker"]) "2 .. 8") [] [.mk .eRange [] [.mk (.eLit "2") [] [], .mk (.eLit "8") [] []]]]], .mk (.arm "_") [] [.mk (.eBinary "<") [] [.mk (.ePath false (.ofIdents ["x"])) [] [], .mk (.eLit "2") [] []], .mk .eAssign [] [.mk (.ePath false (.ofIdents ["a"])) [] [], .mk (.eMacro (.ofIdents ["marker"]) "vec ! [ 2 , 0 ] . into_iter ( )") [] [.mk (.eMethodCall "into_iter") [] [.mk (.eMacro (.ofIdents ["vec"]) "2 , 0") [] []]]]], .mk (.arm "_") [] [.mk .eAssign [] [.mk (.ePath false (.ofIdents ["a"])) [] [], .mk (.eMacro (.ofIdents ["marker"]) "2 ..= 10") [] [.mk .eRange [] [.mk (.eLit "2") [] [], .mk (.eLit "10") [] []]]]]]]

example : passes false ["foo", "marker_a", "bar", "marker"] 1 [.ident "Iterator", .comma, .ident "Clone"] (.stmt unstable_expr_189) = true := by decide +kernel

/-! ## `tests/type_analysis.rs` -/

/-- `tests/type_analysis.rs:13` -/
def type_analysis_test1 : Node :=
  .mk (.iFn "test1" (some (.mk (.implTrait [some ⟨false, [⟨"Iterator", (some "Item = i32")⟩]⟩]) [.mk (.path false (.ofIdents ["i32"]) none) []]))) [] [.mk .block [] [.mk (.sExpr false) [] [.mk .eMatch [] [.mk (.ePath false (.ofIdents ["x"])) [] [], .mk (.arm "0") [] [.mk .eRange [] [.mk (.eLit "1") [] [], .mk (.eLit "10") [] []]], .mk (.arm "_") [] [.mk (.eMethodCall "into_iter") [] [.mk (.eMacro (.ofIdents ["vec"]) "5 , 10") [] []]]]]]]

example : passes true ["foo", "marker_a", "bar", "marker"] 1 [] (.stmt type_analysis_test1) = true := by decide +kernel

example : traits [] (.stmt type_analysis_test1) = [[.ofIdents ["Iterator"]]] := by decide +kernel

/-- `tests/type_analysis.rs:21` -/
def type_analysis_test2 : Node :=
  .mk (.iFn "test2" (some (.mk (.implTrait [some ⟨false, [⟨"Iterator", (some "Item = i32")⟩]⟩]) [.mk (.path false (.ofIdents ["i32"]) none) []]))) [] [.mk .block [] [.mk (.sExpr false) [] [.mk .eMatch [⟨(.ofIdents ["auto_enum"]), .list [.ident "Iterator"]⟩] [.mk (.ePath false (.ofIdents ["x"])) [] [], .mk (.arm "0") [] [.mk .eRange [] [.mk (.eLit "1") [] [], .mk (.eLit "10") [] []]], .mk (.arm "_") [] [.mk (.eMethodCall "into_iter") [] [.mk (.eMacro (.ofIdents ["vec"]) "5 , 10") [] []]]]]]]

example : passes true ["foo", "marker_a", "bar", "marker"] 1 [] (.stmt type_analysis_test2) = true := by decide +kernel

example : traits [] (.stmt type_analysis_test2) = [[.ofIdents ["Iterator"]]] := by decide +kernel

/-- `tests/type_analysis.rs:30` -/
def type_analysis_test3 : Node :=
  .mk (.iFn "test3" (some (.mk (.implTrait [some ⟨false, [⟨"Iterator", (some "Item = i32")⟩]⟩]) [.mk (.path false (.ofIdents ["i32"]) none) []]))) [] [.mk .block [] [.mk (.sExpr false) [] [.mk .eMatch [] [.mk (.ePath false (.ofIdents ["x"])) [] [], .mk (.arm "0") [] [.mk .eReturn [] [.mk .eRange [] [.mk (.eLit "1") [] [], .mk (.eLit "10") [] []]]], .mk (.arm "_") [] [.mk (.eMethodCall "into_iter") [] [.mk (.eMacro (.ofIdents ["vec"]) "5 , 10") [] []]]]]]]

example : passes true ["foo", "marker_a", "bar", "marker"] 1 [] (.stmt type_analysis_test3) = true := by decide +kernel

example : traits [] (.stmt type_analysis_test3) = [[.ofIdents ["Iterator"]]] := by decide +kernel

/-- `tests/type_analysis.rs:38` -/
def type_analysis_test4 : Node :=
  .mk (.iFn "test4" (some (.mk (.implTrait [some ⟨false, [⟨"Iterator", (some "Item = i32")⟩]⟩]) [.mk (.path false (.ofIdents ["i32"]) none) []]))) [] [.mk .block [] [.mk (.sLocal (.plain "iter")) [⟨(.ofIdents ["auto_enum"]), .list [.ident "Iterator"]⟩] [.mk .eMatch [] [.mk (.ePath false (.ofIdents ["x"])) [] [], .mk (.arm "0") [] [.mk .eRange [] [.mk (.eLit "1") [] [], .mk (.eLit "10") [] []]], .mk (.arm "1") [] [.mk .eRange [] [.mk (.eLit "11") [] [], .mk (.eLit "20") [] []]], .mk (.arm "_") [] [.mk .eReturn [] [.mk (.eMethodCall "into_iter") [] [.mk (.eMacro (.ofIdents ["vec"]) "5 , 10") [] []]]]]], .mk (.sExpr false) [] [.mk (.eMethodCall "into_iter") [] [.mk (.eMethodCall "collect") [] [.mk (.ePath false (.ofIdents ["iter"])) [] []]]]]]

example : passes true ["foo", "marker_a", "bar", "marker"] 1 [] (.stmt type_analysis_test4) = true := by decide +kernel

example : traits [] (.stmt type_analysis_test4) = [[.ofIdents ["Iterator"]]] := by decide +kernel

/-- `tests/type_analysis.rs:49` -/
def type_analysis_break_in_loop : Node :=
  .mk (.iFn "break_in_loop" (some (.mk (.implTrait [some ⟨false, [⟨"Iterator", (some "Item = i32")⟩]⟩]) [.mk (.path false (.ofIdents ["i32"]) none) []]))) [] [.mk .block [] [.mk (.sExpr false) [] [.mk (.eLoop none) [] [.mk .block [] [.mk (.sExpr false) [] [.mk .eIf [] [.mk (.eBinary "<") [] [.mk (.ePath false (.ofIdents ["x"])) [] [], .mk (.eLit "0") [] []], .mk .block [] [.mk (.sExpr true) [] [.mk (.eBreak none) [] [.mk .eRange [] [.mk (.ePath false (.ofIdents ["x"])) [] [], .mk (.eLit "0") [] []]]]], .mk .eIf [] [.mk (.eBinary "==") [] [.mk (.eBinary "%") [] [.mk (.ePath false (.ofIdents ["x"])) [] [], .mk (.eLit "5") [] []], .mk (.eLit "0") [] []], .mk .block [] [.mk (.sExpr true) [] [.mk (.eBreak none) [] [.mk .eRange [] [.mk (.eLit "0") [] [], .mk (.ePath false (.ofIdents ["x"])) [] []]]]]]]], .mk (.sExpr true) [] [.mk (.eBinary "-=") [] [.mk (.ePath false (.ofIdents ["x"])) [] [], .mk (.eLit "1") [] []]]]]]]]

example : passes true ["foo", "marker_a", "bar", "marker"] 1 [] (.stmt type_analysis_break_in_loop) = true := by decide +kernel

example : traits [] (.stmt type_analysis_break_in_loop) = [[.ofIdents ["Iterator"]]] := by decide +kernel

/-- `tests/type_analysis.rs:61` -/
def type_analysis_return_in_loop : Node :=
  .mk (.iFn "return_in_loop" (some (.mk (.implTrait [some ⟨false, [⟨"Iterator", (some "Item = i32")⟩]⟩]) [.mk (.path false (.ofIdents ["i32"]) none) []]))) [] [.mk .block [] [.mk (.sExpr false) [] [.mk (.eLoop none) [] [.mk .block [] [.mk (.sExpr false) [] [.mk .eIf [] [.mk (.eBinary "<") [] [.mk (.ePath false (.ofIdents ["x"])) [] [], .mk (.eLit "0") [] []], .mk .block [] [.mk (.sExpr true) [] [.mk .eReturn [] [.mk .eRange [] [.mk (.ePath false (.ofIdents ["x"])) [] [], .mk (.eLit "0") [] []]]]], .mk .eIf [] [.mk (.eBinary "==") [] [.mk (.eBinary "%") [] [.mk (.ePath false (.ofIdents ["x"])) [] [], .mk (.eLit "5") [] []], .mk (.eLit "0") [] []], .mk .block [] [.mk (.sExpr true) [] [.mk .eReturn [] [.mk .eRange [] [.mk (.eLit "0") [] [], .mk (.ePath false (.ofIdents ["x"])) [] []]]]]]]], .mk (.sExpr true) [] [.mk (.eBinary "-=") [] [.mk (.ePath false (.ofIdents ["x"])) [] [], .mk (.eLit "1") [] []]]]]]]]

example : passes true ["foo", "marker_a", "bar", "marker"] 1 [] (.stmt type_analysis_return_in_loop) = true := by decide +kernel

example : traits [] (.stmt type_analysis_return_in_loop) = [[.ofIdents ["Iterator"]]] := by decide +kernel

/-- `tests/type_analysis.rs:76` -/
def type_analysis_test1_76 : Node :=
  .mk (.iFn "test1" none) [] [.mk .block [] [.mk (.sLocal (.typed "_y" (.mk (.implTrait [some ⟨false, [⟨"Iterator", (some "Item = i32")⟩]⟩]) [.mk (.path false (.ofIdents ["i32"]) none) []]))) [⟨(.ofIdents ["auto_enum"]), .path⟩] [.mk .eMatch [] [.mk (.ePath false (.ofIdents ["x"])) [] [], .mk (.arm "0") [] [.mk .eRange [] [.mk (.eLit "1") [] [], .mk (.eLit "10") [] []]], .mk (.arm "_") [] [.mk (.eMethodCall "into_iter") [] [.mk (.eMacro (.ofIdents ["vec"]) "5 , 10") [] []]]]]]]

example : passes true ["foo", "marker_a", "bar", "marker"] 1 [] (.stmt type_analysis_test1_76) = true := by decide +kernel

example : traits [] (.stmt type_analysis_test1_76) = [[.ofIdents ["Iterator"]]] := by decide +kernel

/-- `tests/type_analysis.rs:85` -/
def type_analysis_test2_85 : Node :=
  .mk (.iFn "test2" (some (.mk (.implTrait [some ⟨false, [⟨"Iterator", (some "Item = i32")⟩]⟩, some (.ofIdents ["fmt", "Debug"])]) [.mk (.path false (.ofIdents ["i32"]) none) []]))) [] [.mk .block [] [.mk (.sLocal (.typed "y" (.mk (.implTrait [some ⟨false, [⟨"Iterator", (some "Item = i32")⟩]⟩]) [.mk (.path false (.ofIdents ["i32"]) none) []]))) [⟨(.ofIdents ["auto_enum"]), .list [.ident "fmt", .colon2, .ident "Debug"]⟩] [.mk .eMatch [] [.mk (.ePath false (.ofIdents ["x"])) [] [], .mk (.arm "0") [] [.mk .eRange [] [.mk (.eLit "1") [] [], .mk (.eLit "10") [] []]], .mk (.arm "_") [] [.mk (.eMethodCall "into_iter") [] [.mk (.eMacro (.ofIdents ["vec"]) "5 , 10") [] []]]]], .mk (.sExpr false) [] [.mk (.ePath false (.ofIdents ["y"])) [] []]]]

example : passes true ["foo", "marker_a", "bar", "marker"] 1 [] (.stmt type_analysis_test2_85) = true := by decide +kernel

example : traits [] (.stmt type_analysis_test2_85) = [[.ofIdents ["fmt", "Debug"], .ofIdents ["Iterator"]]] := by decide +kernel

/-! ## `tests/ui/auto_enum/args.rs` -/

/-- `tests/ui/auto_enum/args.rs:6` -/
def args_unexpected_token_1 : Node :=
  .mk (.iFn "unexpected_token_1" (some (.mk (.implTrait [some ⟨false, [⟨"Iterator", (some "Item = i32")⟩]⟩]) [.mk (.path false (.ofIdents ["i32"]) none) []]))) [] [.mk .block [] [.mk (.sExpr false) [] [.mk .eMatch [] [.mk (.ePath false (.ofIdents ["x"])) [] [], .mk (.arm "0") [] [.mk .eRange [] [.mk (.eLit "1") [] [], .mk (.eLit "8") [] []]], .mk (.arm "_") [] [.mk .eRange [] [.mk (.eLit "0") [] [], .mk (.eLit "2") [] []]]]]]]

example : fails [.ident "Iterator", .other ";"] (.stmt args_unexpected_token_1) [.argParse] = true := by decide +kernel

/-- `tests/ui/auto_enum/args.rs:14` -/
def args_unexpected_token_2 : Node :=
  .mk (.iFn "unexpected_token_2" (some (.mk (.implTrait [some ⟨false, [⟨"Iterator", (some "Item = i32")⟩]⟩]) [.mk (.path false (.ofIdents ["i32"]) none) []]))) [] [.mk .block [] [.mk (.sExpr false) [] [.mk .eMatch [] [.mk (.ePath false (.ofIdents ["x"])) [] [], .mk (.arm "0") [] [.mk .eRange [] [.mk (.eLit "1") [] [], .mk (.eLit "8") [] []]], .mk (.arm "_") [] [.mk .eRange [] [.mk (.eLit "0") [] [], .mk (.eLit "2") [] []]]]]]]

example : fails [.ident "Iterator", .comma, .other ";"] (.stmt args_unexpected_token_2) [.argParse] = true := by decide +kernel

/-- `tests/ui/auto_enum/args.rs:25` -/
def args_marker_invalid_delimiter_1 : Node :=
  .mk (.iFn "marker_invalid_delimiter_1" (some (.mk (.implTrait [some ⟨false, [⟨"Iterator", (some "Item = i32")⟩]⟩]) [.mk (.path false (.ofIdents ["i32"]) none) []]))) [] [.mk .block [] [.mk (.sExpr false) [] [.mk .eMatch [] [.mk (.ePath false (.ofIdents ["x"])) [] [], .mk (.arm "0") [] [.mk .eRange [] [.mk (.eLit "1") [] [], .mk (.eLit "8") [] []]], .mk (.arm "_") [] [.mk .eRange [] [.mk (.eLit "0") [] [], .mk (.eLit "2") [] []]]]]]]

example : fails [.ident "marker", .other "{", .ident "f", .other "}", .comma, .ident "Iterator"] (.stmt args_marker_invalid_delimiter_1) [.argParse] = true := by decide +kernel

/-- `tests/ui/auto_enum/args.rs:33` -/
def args_marker_invalid_delimiter_2 : Node :=
  .mk (.iFn "marker_invalid_delimiter_2" (some (.mk (.implTrait [some ⟨false, [⟨"Iterator", (some "Item = i32")⟩]⟩]) [.mk (.path false (.ofIdents ["i32"]) none) []]))) [] [.mk .block [] [.mk (.sExpr false) [] [.mk .eMatch [] [.mk (.ePath false (.ofIdents ["x"])) [] [], .mk (.arm "0") [] [.mk .eRange [] [.mk (.eLit "1") [] [], .mk (.eLit "8") [] []]], .mk (.arm "_") [] [.mk .eRange [] [.mk (.eLit "0") [] [], .mk (.eLit "2") [] []]]]]]]

example : fails [.ident "marker", .other "[", .ident "f", .other "]", .comma, .ident "Iterator"] (.stmt args_marker_invalid_delimiter_2) [.argParse] = true := by decide +kernel

/-- `tests/ui/auto_enum/args.rs:41` -/
def args_marker_removed_delimiter : Node :=
  .mk (.iFn "marker_removed_delimiter" (some (.mk (.implTrait [some ⟨false, [⟨"Iterator", (some "Item = i32")⟩]⟩]) [.mk (.path false (.ofIdents ["i32"]) none) []]))) [] [.mk .block [] [.mk (.sExpr false) [] [.mk .eMatch [] [.mk (.ePath false (.ofIdents ["x"])) [] [], .mk (.arm "0") [] [.mk .eRange [] [.mk (.eLit "1") [] [], .mk (.eLit "8") [] []]], .mk (.arm "_") [] [.mk .eRange [] [.mk (.eLit "0") [] [], .mk (.eLit "2") [] []]]]]]]

example : fails [.ident "marker", .other "(", .ident "f", .other ")", .comma, .ident "Iterator"] (.stmt args_marker_removed_delimiter) [.argParse] = true := by decide +kernel

/-- `tests/ui/auto_enum/args.rs:49` -/
def args_multiple_marker : Node :=
  .mk (.iFn "multiple_marker" (some (.mk (.implTrait [some ⟨false, [⟨"Iterator", (some "Item = i32")⟩]⟩]) [.mk (.path false (.ofIdents ["i32"]) none) []]))) [] [.mk .block [] [.mk (.sExpr false) [] [.mk .eMatch [] [.mk (.ePath false (.ofIdents ["x"])) [] [], .mk (.arm "0") [] [.mk .eRange [] [.mk (.eLit "1") [] [], .mk (.eLit "8") [] []]], .mk (.arm "_") [] [.mk .eRange [] [.mk (.eLit "0") [] [], .mk (.eLit "2") [] []]]]]]]

example : fails [.ident "marker", .eq, .ident "f", .comma, .ident "marker", .eq, .ident "g", .comma, .ident "Iterator"] (.stmt args_multiple_marker) [.dupMarkerArg] = true := by decide +kernel

/-- `tests/ui/auto_enum/args.rs:57` -/
def args_empty_marker : Node :=
  .mk (.iFn "empty_marker" (some (.mk (.implTrait [some ⟨false, [⟨"Iterator", (some "Item = i32")⟩]⟩]) [.mk (.path false (.ofIdents ["i32"]) none) []]))) [] [.mk .block [] [.mk (.sExpr false) [] [.mk .eMatch [] [.mk (.ePath false (.ofIdents ["x"])) [] [], .mk (.arm "0") [] [.mk .eRange [] [.mk (.eLit "1") [] [], .mk (.eLit "8") [] []]], .mk (.arm "_") [] [.mk .eRange [] [.mk (.eLit "0") [] [], .mk (.eLit "2") [] []]]]]]]

example : fails [.ident "marker", .eq, .comma, .ident "Iterator"] (.stmt args_empty_marker) [.argParse] = true := by decide +kernel

/-- `tests/ui/auto_enum/args.rs:65` -/
def args_marker_multiple_ident : Node :=
  .mk (.iFn "marker_multiple_ident" (some (.mk (.implTrait [some ⟨false, [⟨"Iterator", (some "Item = i32")⟩]⟩]) [.mk (.path false (.ofIdents ["i32"]) none) []]))) [] [.mk .block [] [.mk (.sExpr false) [] [.mk .eMatch [] [.mk (.ePath false (.ofIdents ["x"])) [] [], .mk (.arm "0") [] [.mk .eRange [] [.mk (.eLit "1") [] [], .mk (.eLit "8") [] []]], .mk (.arm "_") [] [.mk .eRange [] [.mk (.eLit "0") [] [], .mk (.eLit "2") [] []]]]]]]

example : fails [.ident "marker", .eq, .ident "f", .ident "t", .comma, .ident "Iterator"] (.stmt args_marker_multiple_ident) [.argParse] = true := by decide +kernel

/-! ## `tests/ui/auto_enum/attribute.rs` -/

/-- `tests/ui/auto_enum/attribute.rs:6` -/
def attribute_unexpected_token_in_never : Node :=
  .mk (.iFn "unexpected_token_in_never" (some (.mk (.implTrait [some ⟨false, [⟨"Iterator", (some "Item = i32")⟩]⟩]) [.mk (.path false (.ofIdents ["i32"]) none) []]))) [] [.mk .block [] [.mk (.sExpr false) [] [.mk .eMatch [] [.mk (.ePath false (.ofIdents ["x"])) [] [], .mk (.arm "0") [] [.mk .eRange [] [.mk (.eLit "1") [] [], .mk (.eLit "8") [] []]], .mk (.arm "1") [⟨(.ofIdents ["never"]), .list [.ident "foo"]⟩] [.mk (.eMacro (.ofIdents ["panic"]) "") [] []], .mk (.arm "_") [] [.mk (.eMethodCall "map") [] [.mk .eParen [] [.mk .eRange [] [.mk (.eLit "0") [] [], .mk (.eLit "2") [] []]], .mk (.eClosure "x") [] [.mk (.eBinary "+") [] [.mk (.ePath false (.ofIdents ["x"])) [] [], .mk (.eLit "1") [] []]]]]]]]]

example : fails [.ident "Iterator"] (.stmt attribute_unexpected_token_in_never) [.neverNotPath] = true := by decide +kernel

/-- `tests/ui/auto_enum/attribute.rs:16` -/
def attribute_unexpected_token_in_nested : Node :=
  .mk (.iFn "unexpected_token_in_nested" (some (.mk (.implTrait [some ⟨false, [⟨"Iterator", (some "Item = i32")⟩]⟩]) [.mk (.path false (.ofIdents ["i32"]) none) []]))) [] [.mk .block [] [.mk (.sExpr false) [] [.mk .eMatch [] [.mk (.ePath false (.ofIdents ["x"])) [] [], .mk (.arm "0") [] [.mk .eRange [] [.mk (.eLit "1") [] [], .mk (.eLit "8") [] []]], .mk (.arm "1") [⟨(.ofIdents ["nested"]), .list [.ident "foo"]⟩] [.mk (.eMacro (.ofIdents ["panic"]) "") [] []], .mk (.arm "_") [] [.mk (.eMethodCall "map") [] [.mk .eParen [] [.mk .eRange [] [.mk (.eLit "0") [] [], .mk (.eLit "2") [] []]], .mk (.eClosure "x") [] [.mk (.eBinary "+") [] [.mk (.ePath false (.ofIdents ["x"])) [] [], .mk (.eLit "1") [] []]]]]]]]]

example : fails [.ident "Iterator"] (.stmt attribute_unexpected_token_in_nested) [.nestedNotPath] = true := by decide +kernel

/-- `tests/ui/auto_enum/attribute.rs:26` -/
def attribute_removed_rec : Node :=
  .mk (.iFn "removed_rec" (some (.mk (.implTrait [some ⟨false, [⟨"Iterator", (some "Item = i32")⟩]⟩]) [.mk (.path false (.ofIdents ["i32"]) none) []]))) [] [.mk .block [] [.mk (.sExpr false) [] [.mk .eMatch [] [.mk (.ePath false (.ofIdents ["x"])) [] [], .mk (.arm "0") [] [.mk .eRange [] [.mk (.eLit "1") [] [], .mk (.eLit "8") [] []]], .mk (.arm "1") [⟨(.ofIdents ["rec"]), .path⟩] [.mk (.eMacro (.ofIdents ["panic"]) "") [] []], .mk (.arm "_") [] [.mk (.eMethodCall "map") [] [.mk .eParen [] [.mk .eRange [] [.mk (.eLit "0") [] [], .mk (.eLit "2") [] []]], .mk (.eClosure "x") [] [.mk (.eBinary "+") [] [.mk (.ePath false (.ofIdents ["x"])) [] [], .mk (.eLit "1") [] []]]]]]]]]

example : fails [.ident "Iterator"] (.stmt attribute_removed_rec) [.recRemoved] = true := by decide +kernel

/-! ## `tests/ui/auto_enum/compile-fail.rs` -/

/-- `tests/ui/auto_enum/compile-fail.rs:6` -/
def compile_fail_if_missing_else : Node :=
  .mk (.iFn "if_missing_else" (some (.mk (.implTrait [some ⟨false, [⟨"Iterator", (some "Item = i32")⟩]⟩]) [.mk (.path false (.ofIdents ["i32"]) none) []]))) [] [.mk .block [] [.mk (.sExpr false) [] [.mk .eIf [] [.mk (.eBinary "==") [] [.mk (.ePath false (.ofIdents ["x"])) [] [], .mk (.eLit "0") [] []], .mk .block [] [.mk (.sExpr false) [] [.mk .eRange [] [.mk (.eLit "1") [] [], .mk (.eLit "8") [] []]]], .mk .eIf [] [.mk (.eBinary ">") [] [.mk (.ePath false (.ofIdents ["x"])) [] [], .mk (.eLit "3") [] []], .mk .block [] [.mk (.sExpr false) [] [.mk .eRange [] [.mk (.eLit "2") [] [], .mk (.eLit "10") [] []]]]]]]]]

example : fails [.ident "Iterator"] (.stmt compile_fail_if_missing_else) [.missingElse] = true := by decide +kernel

/-- `tests/ui/auto_enum/compile-fail.rs:16` -/
def compile_fail_return1 : Node :=
  .mk (.iFn "return1" (some (.mk (.implTrait [some ⟨false, [⟨"Iterator", (some "Item = i32")⟩]⟩]) [.mk (.path false (.ofIdents ["i32"]) none) []]))) [] [.mk .block [] [.mk (.sLocal (.plain "iter")) [⟨(.ofIdents ["auto_enum"]), .list [.ident "Iterator"]⟩] [.mk .eMatch [] [.mk (.ePath false (.ofIdents ["x"])) [] [], .mk (.arm "_") [] [.mk (.eBinary "<") [] [.mk (.ePath false (.ofIdents ["y"])) [] [], .mk (.eLit "0") [] []], .mk .eReturn [] [.mk .eRange [] [.mk (.ePath false (.ofIdents ["y"])) [] [], .mk (.eLit "0") [] []]]], .mk (.arm "_") [] [.mk .eRange [] [.mk (.eLit "2") [] [], .mk (.eLit "10") [] []]]]], .mk (.sExpr false) [] [.mk .eMatch [] [.mk (.ePath false (.ofIdents ["y"])) [] [], .mk (.arm "0") [] [.mk (.eMethodCall "flat_map") [] [.mk (.ePath false (.ofIdents ["iter"])) [] [], .mk (.eClosure "x") [] [.mk .eRange [] [.mk (.eLit "0") [] [], .mk (.ePath false (.ofIdents ["x"])) [] []]]]], .mk (.arm "_") [] [.mk (.eMethodCall "map") [] [.mk (.ePath false (.ofIdents ["iter"])) [] [], .mk (.eClosure "x") [] [.mk (.eBinary "+") [] [.mk (.ePath false (.ofIdents ["x"])) [] [], .mk (.eLit "1") [] []]]]]]]]]

example : fails [.ident "Iterator"] (.stmt compile_fail_return1) [.twoOrMore .default true] = true := by decide +kernel

/-- `tests/ui/auto_enum/compile-fail.rs:31` -/
def compile_fail_return0 : Node :=
  .mk (.iFn "return0" (some (.mk (.implTrait [some ⟨false, [⟨"Iterator", (some "Item = i32")⟩]⟩]) [.mk (.path false (.ofIdents ["i32"]) none) []]))) [] [.mk .block [] [.mk (.sLocal (.plain "iter")) [⟨(.ofIdents ["auto_enum"]), .list [.ident "Iterator"]⟩] [.mk .eMatch [] [.mk (.ePath false (.ofIdents ["x"])) [] [], .mk (.arm "_") [] [.mk (.eBinary "<") [] [.mk (.ePath false (.ofIdents ["y"])) [] [], .mk (.eLit "0") [] []], .mk .eReturn [] [.mk .eRange [] [.mk (.ePath false (.ofIdents ["y"])) [] [], .mk (.eLit "0") [] []]]], .mk (.arm "_") [] [.mk .eReturn [] [.mk .eRange [] [.mk (.eLit "2") [] [], .mk (.eLit "10") [] []]]]]], .mk (.sExpr false) [] [.mk .eMatch [] [.mk (.ePath false (.ofIdents ["y"])) [] [], .mk (.arm "0") [] [.mk (.eMethodCall "flat_map") [] [.mk (.ePath false (.ofIdents ["iter"])) [] [], .mk (.eClosure "x") [] [.mk .eRange [] [.mk (.eLit "0") [] [], .mk (.ePath false (.ofIdents ["x"])) [] []]]]], .mk (.arm "_") [] [.mk (.eMethodCall "map") [] [.mk (.ePath false (.ofIdents ["iter"])) [] [], .mk (.eClosure "x") [] [.mk (.eBinary "+") [] [.mk (.ePath false (.ofIdents ["x"])) [] [], .mk (.eLit "1") [] []]]]]]]]]

example : fails [.ident "Iterator"] (.stmt compile_fail_return0) [.twoOrMore .default false] = true := by decide +kernel

/-- `tests/ui/auto_enum/compile-fail.rs:46` -/
def compile_fail_multi_error : Node :=
  .mk (.iFn "multi_error" (some (.mk (.implTrait [some ⟨false, [⟨"Iterator", (some "Item = i32")⟩]⟩]) [.mk (.path false (.ofIdents ["i32"]) none) []]))) [] [.mk .block [] [.mk (.sLocal (.plain "iter")) [⟨(.ofIdents ["auto_enum"]), .list [.ident "Iterator"]⟩] [.mk .eMatch [] [.mk (.ePath false (.ofIdents ["x"])) [] [], .mk (.arm "_") [] [.mk (.eBinary "<") [] [.mk (.ePath false (.ofIdents ["y"])) [] [], .mk (.eLit "0") [] []], .mk .eReturn [] [.mk .eRange [] [.mk (.ePath false (.ofIdents ["y"])) [] [], .mk (.eLit "0") [] []]]], .mk (.arm "_") [] [.mk (.eBlock none) [] [.mk (.sLocal (.plain "_iter")) [⟨(.ofIdents ["auto_enum"]), .list [.ident "Iterator"]⟩] [.mk .eMatch [] [.mk (.ePath false (.ofIdents ["x"])) [] [], .mk (.arm "_") [] [.mk (.eBinary "<") [] [.mk (.ePath false (.ofIdents ["y"])) [] [], .mk (.eLit "0") [] []], .mk .eReturn [] [.mk .eRange [] [.mk (.ePath false (.ofIdents ["y"])) [] [], .mk (.eLit "0") [] []]]], .mk (.arm "_") [] [.mk .eRange [] [.mk (.eLit "2") [] [], .mk (.eLit "10") [] []]]]], .mk (.sExpr false) [] [.mk .eRange [] [.mk (.eLit "2") [] [], .mk (.eLit "10") [] []]]]]]], .mk (.sExpr false) [] [.mk .eMatch [] [.mk (.ePath false (.ofIdents ["y"])) [] [], .mk (.arm "0") [] [.mk (.eMethodCall "flat_map") [] [.mk (.ePath false (.ofIdents ["iter"])) [] [], .mk (.eClosure "x") [] [.mk .eRange [] [.mk (.eLit "0") [] [], .mk (.ePath false (.ofIdents ["x"])) [] []]]]], .mk (.arm "_") [] [.mk (.eMethodCall "map") [] [.mk (.ePath false (.ofIdents ["iter"])) [] [], .mk (.eClosure "x") [] [.mk (.eBinary "+") [] [.mk (.ePath false (.ofIdents ["x"])) [] [], .mk (.eLit "1") [] []]]]]]]]]

example : fails [.ident "Iterator"] (.stmt compile_fail_multi_error) [.twoOrMore .default true, .twoOrMore .default true] = true := by decide +kernel

/-! ## `tests/ui/auto_enum/marker.rs` -/

/-- `tests/ui/auto_enum/marker.rs:6` -/
def marker_a : Node :=
  .mk (.iFn "a" (some (.mk (.implTrait [some ⟨false, [⟨"Iterator", (some "Item = i32")⟩]⟩]) [.mk (.path false (.ofIdents ["i32"]) none) []]))) [] [.mk .block [] [.mk (.sLocal (.plain "_iter")) [⟨(.ofIdents ["auto_enum"]), .list [.ident "Iterator", .comma, .ident "marker", .eq, .ident "foo"]⟩] [.mk .eMatch [] [.mk (.ePath false (.ofIdents ["x"])) [] [], .mk (.arm "0") [] [.mk .eRange [] [.mk (.eLit "1") [] [], .mk (.eLit "8") [] []]], .mk (.arm "1") [] [.mk .eReturn [] [.mk (.eMacro (.ofIdents ["foo"]) "1 .. 9") [] [.mk .eRange [] [.mk (.eLit "1") [] [], .mk (.eLit "9") [] []]]]], .mk (.arm "_") [] [.mk (.eMethodCall "map") [] [.mk .eParen [] [.mk .eRange [] [.mk (.eLit "0") [] [], .mk (.eLit "2") [] []]], .mk (.eClosure "x") [] [.mk (.eBinary "+") [] [.mk (.ePath false (.ofIdents ["x"])) [] [], .mk (.eLit "1") [] []]]]]]], .mk (.sExpr false) [] [.mk .eMatch [] [.mk (.ePath false (.ofIdents ["x"])) [] [], .mk (.arm "0") [] [.mk .eRange [] [.mk (.eLit "1") [] [], .mk (.eLit "8") [] []]], .mk (.arm "_") [] [.mk (.eMethodCall "map") [] [.mk .eParen [] [.mk .eRange [] [.mk (.eLit "0") [] [], .mk (.eLit "2") [] []]], .mk (.eClosure "x") [] [.mk (.eBinary "+") [] [.mk (.ePath false (.ofIdents ["x"])) [] [], .mk (.eLit "1") [] []]]]]]]]]

example : fails [.ident "Iterator", .comma, .ident "marker", .eq, .ident "foo"] (.stmt marker_a) [.dupMarkerName "foo"] = true := by decide +kernel

/-- `tests/ui/auto_enum/marker.rs:22` -/
def marker_b : Node :=
  .mk (.iFn "b" (some (.mk (.implTrait [some ⟨false, [⟨"Iterator", (some "Item = i32")⟩]⟩]) [.mk (.path false (.ofIdents ["i32"]) none) []]))) [] [.mk .block [] [.mk (.sLocal (.plain "_iter")) [⟨(.ofIdents ["auto_enum"]), .list [.ident "Iterator", .comma, .ident "marker", .eq, .ident "bar"]⟩] [.mk .eMatch [] [.mk (.ePath false (.ofIdents ["x"])) [] [], .mk (.arm "0") [] [.mk .eRange [] [.mk (.eLit "1") [] [], .mk (.eLit "8") [] []]], .mk (.arm "1") [] [.mk .eReturn [] [.mk (.eMacro (.ofIdents ["foo"]) "1 .. 9") [] [.mk .eRange [] [.mk (.eLit "1") [] [], .mk (.eLit "9") [] []]]]], .mk (.arm "2") [] [.mk .eReturn [] [.mk (.eMacro (.ofIdents ["marker"]) "1 .. 9") [] [.mk .eRange [] [.mk (.eLit "1") [] [], .mk (.eLit "9") [] []]]]], .mk (.arm "_") [] [.mk (.eMethodCall "map") [] [.mk .eParen [] [.mk .eRange [] [.mk (.eLit "0") [] [], .mk (.eLit "2") [] []]], .mk (.eClosure "x") [] [.mk (.eBinary "+") [] [.mk (.ePath false (.ofIdents ["x"])) [] [], .mk (.eLit "1") [] []]]]]]], .mk (.sExpr false) [] [.mk .eMatch [] [.mk (.ePath false (.ofIdents ["x"])) [] [], .mk (.arm "0") [] [.mk .eRange [] [.mk (.eLit "1") [] [], .mk (.eLit "8") [] []]], .mk (.arm "_") [] [.mk (.eMethodCall "map") [] [.mk .eParen [] [.mk .eRange [] [.mk (.eLit "0") [] [], .mk (.eLit "2") [] []]], .mk (.eClosure "x") [] [.mk (.eBinary "+") [] [.mk (.ePath false (.ofIdents ["x"])) [] [], .mk (.eLit "1") [] []]]]]]]]]

example : passes false ["foo", "marker_a", "bar"] 2 [.ident "Iterator", .comma, .ident "marker", .eq, .ident "foo"] (.stmt marker_b) = true := by decide +kernel

end AutoEnums.Suite
