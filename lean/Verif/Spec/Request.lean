import Verif.Spec.Tree
import Verif.Spec.Args

/-!
# Specification vocabulary: the attribute of a generated enum

Nothing in this file refers to the model of the code.
-/

namespace AutoEnums.Spec

/-- The arguments of the `#[enum_derive(..)]` attribute of a generated enum (`context.rs:363`): the traits,
separated by commas. -/
def GenEnum.request (e : GenEnum) : List Tok := printEntries false (e.derives.map .trait)

end AutoEnums.Spec
