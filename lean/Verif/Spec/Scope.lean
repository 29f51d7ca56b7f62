import Verif.Spec.Tree

/-!
# Specification vocabulary: scopes of generated enums

Nothing in this file refers to the model of the code.
-/

namespace AutoEnums.Spec

/-- The statement declares an enum `en` with a variant `vn`. -/
def declares (en vn : Ident) : Node → Bool
  | .mk (.sItem (.genEnum name _ vs _)) _ _ => name == en && (vs.map (·.1)).contains vn
  | _ => false

mutual
/-- How often `en::vn` is used outside of all blocks that have a declaration of that variant among
their statements. -/
def freeUses (en vn : Ident) : Node → Nat
  | .mk k as ks =>
    if k.isBlockLike && ks.any (declares en vn) then 0
    else isUse en vn (k, as) + freeUsesL en vn ks
def freeUsesL (en vn : Ident) : List Node → Nat
  | [] => 0
  | n :: ns => freeUses en vn n + freeUsesL en vn ns
end

/-- The block has a declaration of `en::vn` among its statements. -/
def declaring (en vn : Ident) : Node → Bool
  | .mk k _ ks => k.isBlockLike && ks.any (declares en vn)

mutual
/-- The blocks of a tree that have a declaration of `en::vn` among their statements. -/
def declBlocks (en vn : Ident) : Node → List Node
  | .mk k as ks => (if declaring en vn (.mk k as ks) then [.mk k as ks] else []) ++ declBlocksL en vn ks
def declBlocksL (en vn : Ident) : List Node → List Node
  | [] => []
  | n :: ns => declBlocks en vn n ++ declBlocksL en vn ns
end

end AutoEnums.Spec
