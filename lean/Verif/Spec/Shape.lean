import Verif.Syntax

/-!
# Specification vocabulary: syntactically valid trees

Nothing in this file refers to the model of the code.  The trees of the model are more liberal than
Rust's grammar; the only grammatical fact the code relies on is what may follow `else`.
-/

namespace AutoEnums.Spec

/-- What may follow `else`: a block or another `if`. -/
def mayFollowElse : Node → Bool
  | .mk (.eBlock _) _ _ => true
  | .mk .eIf _ _ => true
  | _ => false

mutual
/-- Everywhere in the tree (including inside macro calls) only blocks and `if`s follow `else`. -/
def elseOk : Node → Bool
  | .mk k _ ks => (k != .eIf || (ks.drop 2).all mayFollowElse) && elseOkL ks
def elseOkL : List Node → Bool
  | [] => true
  | n :: ns => elseOk n && elseOkL ns
end

end AutoEnums.Spec
